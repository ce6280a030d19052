import Verif.Lemmas.Dynamic
/-
Formatters look at a replacement field only up to its closing brace.
-/
namespace Emio
open Spec Reader

/-- Two readers at the same text up to a closing brace. -/
structure Twin (b b' : Reader) (s tail tail' : Str) : Prop where
  left : b.At (s ++ '}' :: tail)
  right : b'.At (s ++ '}' :: tail')
  free : '}' ∉ s

/-- A function does the same on both readers. -/
def Alike {α : Type} (b b' : Reader) (m : M Reader α) (n : Nat) (Q : Nat → α → Prop) : Prop :=
  (∃ u u' e, m (b.adv n) = .err u e ∧ m (b'.adv n) = .err u' e) ∨
  (∃ x, m (b.adv n) = .bad x ∧ m (b'.adv n) = .bad x) ∨
  ∃ k a, m (b.adv n) = .ok (b.adv k) a ∧ m (b'.adv n) = .ok (b'.adv k) a ∧ Q k a

namespace Alike
variable {b b' : Reader}

theorem bind {α β : Type} {m : M Reader α} {f : α → M Reader β} {n : Nat} {Q : Nat → α → Prop} {R : Nat → β → Prop}
    (h : Alike b b' m n Q) (hf : ∀ k a, Q k a → Alike b b' (f a) k R) : Alike b b' (m >>= f) n R := by
  rcases h with ⟨u, u', e, h1, h2⟩ | ⟨x, h1, h2⟩ | ⟨k, a, h1, h2, hq⟩
  · exact Or.inl ⟨u, u', e, M.bind_err h1, M.bind_err h2⟩
  · exact Or.inr (Or.inl ⟨x, M.bind_bad h1, M.bind_bad h2⟩)
  · have := hf k a hq
    unfold Alike at this ⊢
    rw [M.bind_ok h1, M.bind_ok h2]
    exact this

theorem pure {α : Type} {a : α} {n : Nat} {Q : Nat → α → Prop} (h : Q n a) : Alike b b' (Pure.pure a) n Q :=
  Or.inr (Or.inr ⟨n, a, rfl, rfl, h⟩)

theorem throw {α : Type} {e : Err} {n : Nat} {Q : Nat → α → Prop} : Alike b b' (M.throw e) n Q :=
  Or.inl ⟨_, _, e, rfl, rfl⟩

theorem mono {α : Type} {m : M Reader α} {n : Nat} {Q R : Nat → α → Prop} (h : Alike b b' m n Q)
    (hq : ∀ k a, Q k a → R k a) : Alike b b' m n R := by
  rcases h with h | h | ⟨k, a, h1, h2, h3⟩
  · exact Or.inl h
  · exact Or.inr (Or.inl h)
  · exact Or.inr (Or.inr ⟨k, a, h1, h2, hq k a h3⟩)

theorem assume {α : Type} {m : M Reader α} {n : Nat} {Q : Nat → α → Prop} (h : Alike b b' m n Q) :
    Alike b b' (assumeValue m) n Q := by
  unfold Alike assumeValue
  rcases h with ⟨u, u', e, h1, h2⟩ | ⟨x, h1, h2⟩ | ⟨k, a, h1, h2, hq⟩
  · exact Or.inr (Or.inl ⟨.ub, by rw [h1], by rw [h2]⟩)
  · exact Or.inr (Or.inl ⟨x, by rw [h1], by rw [h2]⟩)
  · exact Or.inr (Or.inr ⟨k, a, by rw [h1], by rw [h2], hq⟩)

variable {s tail tail' : Str}

/-- The character just read. -/
def Good (s : Str) (k : Nat) (c : Char) : Prop := 1 ≤ k ∧ k ≤ s.length + 1 ∧ (s ++ ['}'])[k - 1]? = some c

theorem good_last (h : Twin b b' s tail tail') {k : Nat} {c : Char} (hg : Good s k c) : c = '}' ↔ k = s.length + 1 := by
  obtain ⟨h1, h2, h3⟩ := hg
  constructor
  · rintro rfl
    by_contra hk
    rw [List.getElem?_append_left (by omega)] at h3
    exact h.free (List.mem_of_getElem? h3)
  · rintro rfl
    simp at h3
    exact h3.symm

theorem good_in (h : Twin b b' s tail tail') {k : Nat} {c : Char} (hg : Good s k c) (hc : c ≠ '}') : k ≤ s.length := by
  have := (good_last h hg).not.1 hc
  have := hg.2.1
  omega

theorem split (h : Twin b b' s tail tail') {n : Nat} (hn : n ≤ s.length) : ∃ c l l', (b.adv n).At (c :: l) ∧
    (b'.adv n).At (c :: l') ∧ (s ++ ['}'])[n]? = some c := by
  have e : s = s.take n ++ s.drop n := (List.take_append_drop n s).symm
  have el : (s.take n).length = n := by simp [hn]
  have h1 := h.left
  have h2 := h.right
  rw [e, List.append_assoc] at h1 h2
  have h1 := h1.adv
  have h2 := h2.adv
  rw [el] at h1 h2
  have e3 : (s ++ ['}'])[n]? = (s.drop n ++ ['}'])[0]? := by
    conv_lhs => rw [e, List.append_assoc]
    rw [List.getElem?_append_right (by omega), el, Nat.sub_self]
  rw [e3]
  cases hd : s.drop n with
  | nil =>
    rw [hd] at h1 h2
    exact ⟨'}', tail, tail', h1, h2, rfl⟩
  | cons c l =>
    rw [hd] at h1 h2
    exact ⟨c, _, _, h1, h2, rfl⟩

theorem readChar (h : Twin b b' s tail tail') {n : Nat} (hn : n ≤ s.length) :
    Alike b b' Reader.readChar n (fun k c => k = n + 1 ∧ Good s k c) := by
  obtain ⟨c, l, l', h1, h2, h3⟩ := split h hn
  refine Or.inr (Or.inr ⟨n + 1, c, ?_, ?_, rfl, by omega, by omega, by simpa using h3⟩)
  · rw [h1.readChar, adv_adv]
  · rw [h2.readChar, adv_adv]

theorem peek (h : Twin b b' s tail tail') {n : Nat} (hn : n ≤ s.length) :
    Alike b b' Reader.peek n (fun k c => k = n ∧ Good s (n + 1) c) := by
  obtain ⟨c, l, l', h1, h2, h3⟩ := split h hn
  exact Or.inr (Or.inr ⟨n, c, h1.peek, h2.peek, rfl, by omega, by omega, by simpa using h3⟩)

theorem pop1 (h : Twin b b' s tail tail') {n : Nat} (hn : n ≤ s.length) :
    Alike b b' (M.modify (·.pop 1)) n (fun k _ => k = n + 1) := by
  obtain ⟨c, l, l', h1, h2, h3⟩ := split h hn
  refine Or.inr (Or.inr ⟨n + 1, (), ?_, ?_, rfl⟩)
  · rw [M.modify_run, h1.pop1, adv_adv]
  · rw [M.modify_run, h2.pop1, adv_adv]

theorem unpop1 {n : Nat} (hn : 1 ≤ n) : Alike b b' (M.modify (·.unpop 1)) n (fun k _ => k = n - 1) := by
  obtain ⟨m, rfl⟩ : ∃ m, n = m + 1 := ⟨n - 1, by omega⟩
  refine Or.inr (Or.inr ⟨m, (), ?_, ?_, rfl⟩) <;>
  · rw [M.modify_run]
    simp [Reader.unpop, Reader.adv, Nat.add_assoc]

theorem readIf (h : Twin b b' s tail tail') {n : Nat} (hn : n ≤ s.length) (c : Char) :
    Alike b b' (Reader.readIfMatchChar c) n (fun k _ => k = n + 1 ∧ Good s k c) := by
  obtain ⟨d, l, l', h1, h2, h3⟩ := split h hn
  have hrun : ∀ {r : Reader} {l : Str}, r.At (d :: l) →
      Reader.readIfMatchChar c r = if d = c then .ok (r.adv 1) c else .err r .invalidData := by
    intro r l hr
    have hp := hr.pos
    simp only [List.length_cons] at hp
    unfold Reader.readIfMatchChar
    rw [if_pos (by omega)]
    have : r.src[r.pos]? = some d := by
      have h0 : r.rest[0]? = some d := by rw [hr.2]; rfl
      unfold Reader.rest at h0
      simpa using h0
    rw [this]
    rfl
  unfold Alike
  rw [hrun h1, hrun h2]
  split
  · rename_i hd
    subst hd
    exact Or.inr (Or.inr ⟨n + 1, d, by rw [adv_adv], by rw [adv_adv], rfl, by omega, by omega, by simpa using h3⟩)
  · exact Or.inl ⟨_, _, _, rfl, rfl⟩

theorem brace_no_digit : charToDigit '}' (10 : Int).toNat = none := by decide +kernel

/-- The digits of a number end at the brace. -/
theorem parseLoop_twin (t : IntTy) (base : Nat) (hb : charToDigit '}' base = none) (neg : Bool) (tail tail' : Str) :
    ∀ (v : Str) (pos pos' : Nat) (value mo : Int) (d : Nat),
      (∃ u u' e, parseLoop t base neg (v ++ '}' :: tail) pos value mo d = .err u e ∧
        parseLoop t base neg (v ++ '}' :: tail') pos' value mo d = .err u' e) ∨
      (∃ x, parseLoop t base neg (v ++ '}' :: tail) pos value mo d = .bad x ∧
        parseLoop t base neg (v ++ '}' :: tail') pos' value mo d = .bad x) ∨
      ∃ j a, parseLoop t base neg (v ++ '}' :: tail) pos value mo d = .ok (pos + j) a ∧
        parseLoop t base neg (v ++ '}' :: tail') pos' value mo d = .ok (pos' + j) a ∧ j ≤ v.length := by
  intro v
  induction v with
  | nil =>
    intro pos pos' value mo d
    simp only [List.nil_append]
    rw [parseLoop, parseLoop]
    cases addDigit t neg value mo d with
    | bad x => exact Or.inr (Or.inl ⟨x, rfl, rfl⟩)
    | err u e => exact Or.inl ⟨_, _, e, rfl, rfl⟩
    | ok u mo' =>
      simp only [nextDigit, hb]
      exact Or.inr (Or.inr ⟨0, mo', rfl, rfl, Nat.le_refl _⟩)
  | cons c v ih =>
    intro pos pos' value mo d
    simp only [List.cons_append]
    rw [parseLoop, parseLoop]
    cases addDigit t neg value mo d with
    | bad x => exact Or.inr (Or.inl ⟨x, rfl, rfl⟩)
    | err u e => exact Or.inl ⟨_, _, e, rfl, rfl⟩
    | ok u mo' =>
      simp only
      cases nextDigit t base c mo' with
      | none => exact Or.inr (Or.inr ⟨0, mo', rfl, rfl, Nat.zero_le _⟩)
      | some o =>
        cases o with
        | none => exact Or.inr (Or.inl ⟨_, rfl, rfl⟩)
        | some x =>
          obtain ⟨v', m, d'⟩ := x
          simp only
          rcases ih (pos + 1) (pos' + 1) v' m d' with h | h | ⟨j, a, h1, h2, h3⟩
          · exact Or.inl h
          · exact Or.inr (Or.inl h)
          · exact Or.inr (Or.inr ⟨j + 1, a, by rw [h1]; congr 1; omega, by rw [h2]; congr 1; omega, by simpa using h3⟩)

theorem parseSign (h : Twin b b' s tail tail') {n : Nat} (hn : n ≤ s.length) :
    Alike b b' Reader.parseSign n (fun k _ => k ≤ s.length) := by
  unfold Reader.parseSign
  refine (peek h hn).bind fun k c hk => ?_
  obtain ⟨rfl, hg⟩ := hk
  have hin : c ≠ '}' → k + 1 ≤ s.length := fun hc => good_in h hg hc
  split
  · rename_i hc
    refine (pop1 h hn).bind fun j _ hj => pure ?_
    have := hin (by rw [hc]; decide)
    omega
  · split
    · rename_i hc
      refine (pop1 h hn).bind fun j _ hj => pure ?_
      have := hin (by rw [hc]; decide)
      omega
    · exact pure hn

theorem parseIntRaw (h : Twin b b' s tail tail') {n : Nat} (hn : n ≤ s.length) (t : IntTy) (neg : Bool) :
    Alike b b' (Reader.parseIntRaw t 10 neg) n (fun k _ => k ≤ s.length) := by
  unfold Reader.parseIntRaw
  split
  · exact throw
  · refine (readChar h hn).bind fun k c hk => ?_
    obtain ⟨rfl, hg⟩ := hk
    split
    · exact throw
    · rename_i d hd
      split
      · exact throw
      · have hc : c ≠ '}' := by
          rintro rfl
          rw [brace_no_digit] at hd
          cases hd
        have hin := good_in h hg hc
        have e : s = s.take (n + 1) ++ s.drop (n + 1) := (List.take_append_drop _ s).symm
        have el : (s.take (n + 1)).length = n + 1 := by simp; omega
        have h1 := h.left
        have h2 := h.right
        rw [e, List.append_assoc] at h1 h2
        have h1 := h1.adv
        have h2 := h2.adv
        rw [el] at h1 h2
        unfold Alike parseDigits
        rw [h1.2, h2.2]
        have hdl : (s.drop (n + 1)).length = s.length - (n + 1) := by simp
        rcases parseLoop_twin t (10 : Int).toNat brace_no_digit neg tail tail' (s.drop (n + 1)) (b.adv (n + 1)).pos
          (b'.adv (n + 1)).pos 0 0 d with ⟨u, u', e, g1, g2⟩ | ⟨x, g1, g2⟩ | ⟨j, a, g1, g2, g3⟩
        · rw [g1, g2]; exact Or.inl ⟨_, _, e, rfl, rfl⟩
        · rw [g1, g2]; exact Or.inr (Or.inl ⟨x, rfl, rfl⟩)
        · rw [g1, g2]
          refine Or.inr (Or.inr ⟨n + 1 + j, a, ?_, ?_, by omega⟩) <;> simp [Reader.adv, Nat.add_assoc]

theorem parseInt (h : Twin b b' s tail tail') {n : Nat} (hn : n ≤ s.length) (t : IntTy) :
    Alike b b' (Reader.parseInt t 10) n (fun k _ => k ≤ s.length) := by
  have hs : Alike b b' (parseSignAndInt t.upcast 10) n (fun k _ => k ≤ s.length) := by
    unfold parseSignAndInt
    exact (parseSign h hn).bind fun k neg hk => parseIntRaw h hk _ _
  unfold Alike Reader.parseInt
  rcases hs with ⟨u, u', e, h1, h2⟩ | ⟨x, h1, h2⟩ | ⟨k, a, h1, h2, hk⟩
  · rw [h1, h2]; exact Or.inl ⟨_, _, e, rfl, rfl⟩
  · rw [h1, h2]; exact Or.inr (Or.inl ⟨x, rfl, rfl⟩)
  · rw [h1, h2]
    simp only
    split
    · exact Or.inr (Or.inr ⟨k, a, rfl, rfl, hk⟩)
    · split
      · exact Or.inl ⟨_, _, _, rfl, rfl⟩
      · exact Or.inr (Or.inr ⟨k, a, rfl, rfl, hk⟩)

/-! ### Specifications -/

/-- The state between two steps. -/
def Step (s : Str) (k : Nat) (x : Specs × Char) : Prop := Good s k x.2

theorem next {α : Type} (h : Twin b b' s tail tail') {k : Nat} {c : Char} (hg : Good s k c) (hc : c ≠ '}')
    (f : Char → α) (Q : Nat → α → Prop) (hq : ∀ j d, Good s j d → Q j (f d)) :
    Alike b b' (do let c' ← Reader.readChar; return f c') k Q :=
  (readChar h (good_in h hg hc)).bind fun _ _ hj => pure (hq _ _ hj.2)

theorem next' {α : Type} (h : Twin b b' s tail tail') {k : Nat} {c : Char} (hg : Good s k c) (hc : c ≠ '}')
    (f : Char → α) (Q : Nat → α → Prop) (hq : ∀ j d, Good s j d → Q j (f d)) :
    Alike b b' (do let c' ← assumeValue Reader.readChar; return f c') k Q :=
  (readChar h (good_in h hg hc)).assume.bind fun _ _ hj => pure (hq _ _ hj.2)

variable {x : Specs} {k : Nat} {c : Char}

theorem valign (h : Twin b b' s tail tail') (hg : Good s k c) (hc : c ≠ '}') :
    Alike b b' (Validate.align x c) k (Step s) := by
  unfold Validate.align
  refine (peek h (good_in h hg hc)).bind fun k2 c2 hk2 => ?_
  obtain ⟨rfl, hg2⟩ := hk2
  split
  · rename_i ha
    have hc2 : c2 ≠ '}' := by rintro rfl; revert ha; decide
    refine (pop1 h (good_in h hg hc)).bind fun j _ hj => ?_
    subst hj
    exact next h hg2 hc2 (fun c' => ({ x with align := alignOf c2, fill := c }, c')) (Step s) fun _ _ hj => hj
  · split
    · exact next h hg hc (fun c' => ({ x with align := alignOf c }, c')) (Step s) fun _ _ hj => hj
    · exact pure hg

theorem palign (h : Twin b b' s tail tail') (hg : Good s k c) (hc : c ≠ '}') :
    Alike b b' (Parse.align x c) k (Step s) := by
  unfold Parse.align
  refine (peek h (good_in h hg hc)).assume.bind fun k2 c2 hk2 => ?_
  obtain ⟨rfl, hg2⟩ := hk2
  split
  · rename_i ha
    have hc2 : c2 ≠ '}' := by rintro rfl; revert ha; decide
    refine (pop1 h (good_in h hg hc)).bind fun j _ hj => ?_
    subst hj
    exact next' h hg2 hc2 (fun c' => ({ x with align := alignOf c2, fill := c }, c')) (Step s) fun _ _ hj => hj
  · split
    · exact next' h hg hc (fun c' => ({ x with align := alignOf c }, c')) (Step s) fun _ _ hj => hj
    · exact pure hg

theorem vsign (h : Twin b b' s tail tail') (hg : Good s k c) : Alike b b' (Validate.sign x c) k (Step s) := by
  unfold Validate.sign
  split
  · rename_i ha
    exact next h hg (by rintro rfl; revert ha; decide) (fun c' => ({ x with sign := c }, c')) (Step s) fun _ _ hj => hj
  · exact pure hg

theorem psign (h : Twin b b' s tail tail') (hg : Good s k c) : Alike b b' (Parse.sign x c) k (Step s) := by
  unfold Parse.sign
  split
  · rename_i ha
    exact next' h hg (by rintro rfl; revert ha; decide) (fun c' => ({ x with sign := c }, c')) (Step s) fun _ _ hj => hj
  · exact pure hg

theorem valternate (h : Twin b b' s tail tail') (hg : Good s k c) : Alike b b' (Validate.alternate x c) k (Step s) := by
  unfold Validate.alternate
  split
  · rename_i ha
    exact next h hg (by rintro rfl; revert ha; decide) (fun c' => ({ x with alternateForm := true }, c')) (Step s) fun _ _ hj => hj
  · exact pure hg

theorem palternate (h : Twin b b' s tail tail') (hg : Good s k c) : Alike b b' (Parse.alternate x c) k (Step s) := by
  unfold Parse.alternate
  split
  · rename_i ha
    exact next' h hg (by rintro rfl; revert ha; decide) (fun c' => ({ x with alternateForm := true }, c')) (Step s) fun _ _ hj => hj
  · exact pure hg

theorem vzero (h : Twin b b' s tail tail') (hg : Good s k c) : Alike b b' (Validate.zero x c) k (Step s) := by
  unfold Validate.zero
  split
  · rename_i ha
    exact next h hg (by rintro rfl; revert ha; decide) (fun c' => (_, c')) (Step s) fun _ _ hj => hj
  · exact pure hg

theorem pzero (h : Twin b b' s tail tail') (hg : Good s k c) : Alike b b' (Parse.zero x c) k (Step s) := by
  unfold Parse.zero
  split
  · rename_i ha
    exact next' h hg (by rintro rfl; revert ha; decide) (fun c' => (_, c')) (Step s) fun _ _ hj => hj
  · exact pure hg

theorem vwidth (h : Twin b b' s tail tail') (hg : Good s k c) : Alike b b' (Validate.width x c) k (Step s) := by
  unfold Validate.width
  split
  · rename_i ha
    have hin := good_in h hg (by rintro rfl; revert ha; decide)
    refine (unpop1 hg.1).bind fun j _ hj => ?_
    refine (parseInt h (by omega) u32).bind fun j2 w hj2 => ?_
    split
    · exact throw
    · exact (readChar h hj2).bind fun _ _ hj => pure hj.2
  · exact pure hg

theorem pwidth (h : Twin b b' s tail tail') (hg : Good s k c) : Alike b b' (Parse.width x c) k (Step s) := by
  unfold Parse.width
  split
  · rename_i ha
    have hin := good_in h hg (by rintro rfl; revert ha; decide)
    refine (unpop1 hg.1).bind fun j _ hj => ?_
    refine (parseInt h (by omega) u32).assume.bind fun j2 w hj2 => ?_
    exact (readChar h hj2).assume.bind fun _ _ hj => pure hj.2
  · exact pure hg

theorem vprecision (h : Twin b b' s tail tail') (hg : Good s k c) : Alike b b' (Validate.precision x c) k (Step s) := by
  unfold Validate.precision
  split
  · rename_i ha
    have hin := good_in h hg (by rintro rfl; revert ha; decide)
    have e : Validate.noDigitNext (b.adv k) = Validate.noDigitNext (b'.adv k) := by
      obtain ⟨c, l, l', h1, h2, h3⟩ := split h hin
      unfold Validate.noDigitNext
      rw [h1.peek, h2.peek]
    have : Alike b b' (do
        if Validate.noDigitNext (b.adv k) then M.throw .invalidFormat
        else
          let p ← Reader.parseInt u32 10
          if p > int32Max then M.throw .invalidFormat
          else
            let c' ← Reader.readChar
            return ({ x with precision := p }, c')) k (Step s) := by
      split
      · exact throw
      · refine (parseInt h hin u32).bind fun j2 w hj2 => ?_
        split
        · exact throw
        · exact (readChar h hj2).bind fun _ _ hj => pure hj.2
    unfold Alike at this ⊢
    rw [M.bind_ok (M.get_run _), M.bind_ok (M.get_run _), ← e]
    exact this
  · exact pure hg

theorem pprecision (h : Twin b b' s tail tail') (hg : Good s k c) : Alike b b' (Parse.precision x c) k (Step s) := by
  unfold Parse.precision
  split
  · rename_i ha
    have hin := good_in h hg (by rintro rfl; revert ha; decide)
    refine (parseInt h hin u32).assume.bind fun j2 w hj2 => ?_
    exact (readChar h hj2).assume.bind fun _ _ hj => pure hj.2
  · exact pure hg

theorem vtype (h : Twin b b' s tail tail') (hg : Good s k c) : Alike b b' (Validate.type x c) k (Step s) := by
  unfold Validate.type
  split
  · rename_i ha
    exact next h hg (by rintro rfl; revert ha; decide) (fun c' => ({ x with type := c }, c')) (Step s) fun _ _ hj => hj
  · exact pure hg

theorem ptype (h : Twin b b' s tail tail') (hg : Good s k c) : Alike b b' (Parse.type x c) k (fun _ _ => True) := by
  unfold Parse.type
  split
  · rename_i ha
    refine (pop1 h (good_in h hg (by rintro rfl; revert ha; decide))).bind fun j _ hj => pure trivial
  · exact pure trivial

theorem validateSpecs (h : Twin b b' s tail tail') {n : Nat} (hn : n ≤ s.length) (x : Specs) :
    Alike b b' (validateFormatSpecs x) n (fun k _ => k = s.length + 1) := by
  unfold validateFormatSpecs
  refine (readChar h hn).bind fun k c hk => ?_
  obtain ⟨rfl, hg⟩ := hk
  split
  · rename_i hc
    exact pure ((good_last h hg).1 hc)
  · rename_i hc
    split
    · exact throw
    · unfold Validate.steps
      refine (valign h hg hc).bind fun _ ⟨_, _⟩ hg => ?_
      refine (vsign h hg).bind fun _ ⟨_, _⟩ hg => ?_
      refine (valternate h hg).bind fun _ ⟨_, _⟩ hg => ?_
      refine (vzero h hg).bind fun _ ⟨_, _⟩ hg => ?_
      refine (vwidth h hg).bind fun _ ⟨_, _⟩ hg => ?_
      refine (vprecision h hg).bind fun _ ⟨_, _⟩ hg => ?_
      refine (vtype h hg).bind fun _ ⟨_, _⟩ hg => ?_
      simp only
      split
      · rename_i hc
        exact pure ((good_last h hg).1 hc)
      · exact throw

theorem parseSpecs (h : Twin b b' s tail tail') {n : Nat} (hn : n ≤ s.length) (x : Specs) :
    Alike b b' (parseFormatSpecs x) n (fun _ _ => True) := by
  unfold parseFormatSpecs
  refine (readChar h hn).assume.bind fun k c hk => ?_
  obtain ⟨rfl, hg⟩ := hk
  split
  · exact pure trivial
  · rename_i hc
    refine (palign h hg hc).bind fun _ ⟨_, _⟩ hg => ?_
    refine (psign h hg).bind fun _ ⟨_, _⟩ hg => ?_
    refine (palternate h hg).bind fun _ ⟨_, _⟩ hg => ?_
    refine (pzero h hg).bind fun _ ⟨_, _⟩ hg => ?_
    refine (pwidth h hg).bind fun _ ⟨_, _⟩ hg => ?_
    refine (pprecision h hg).bind fun _ ⟨_, _⟩ hg => ?_
    exact ptype h hg

theorem coreValidate (h : Twin b b' s tail tail') {n : Nat} (hn : n ≤ s.length) (t : CoreTy) :
    Alike b b' t.validate n (fun k _ => k = s.length + 1) := by
  unfold CoreTy.validate
  refine (validateSpecs h hn {}).bind fun k x hk => ?_
  split
  · exact pure hk
  · exact throw

theorem rangeHead (h : Twin b b' s tail tail') {n : Nat} (hn : n ≤ s.length) :
    Alike b b' validateRangeHead n (fun k more => if more then k ≤ s.length else k = s.length + 1) := by
  unfold validateRangeHead
  refine (readChar h hn).bind fun k c hk => ?_
  obtain ⟨rfl, hg⟩ := hk
  have : Alike b b' (if c = 'n' then Reader.readChar else Pure.pure c) (n + 1) (Good s) := by
    split
    · rename_i hc
      exact (readChar h (good_in h hg (by rw [hc]; decide))).mono fun _ _ hj => hj.2
    · exact pure hg
  refine this.bind fun k c hg => ?_
  split
  · rename_i hc
    exact pure (by simpa using (good_last h hg).1 hc)
  · rename_i hc
    split
    · exact pure (by simpa using good_in h hg hc)
    · exact throw

theorem pRangeHead (h : Twin b b' s tail tail') {n : Nat} (hn : n ≤ s.length) :
    Alike b b' parseRangeHead n (fun k _ => k ≤ s.length) := by
  unfold parseRangeHead
  refine (peek h hn).assume.bind fun k c hk => ?_
  obtain ⟨rfl, hg⟩ := hk
  have : Alike b b' (if decide (c = 'n') = true then (do
      M.modify (·.pop 1)
      assumeValue Reader.peek) else Pure.pure c) k (fun j d => j ≤ s.length ∧ Good s (j + 1) d) := by
    split
    · rename_i hc
      have hc : c = 'n' := by simpa using hc
      have hin := good_in h hg (by rw [hc]; decide)
      refine (pop1 h hn).bind fun j _ hj => ?_
      subst hj
      exact (peek h hin).assume.mono fun _ _ hj => ⟨by omega, by rw [hj.1]; exact hj.2⟩
    · exact pure ⟨hn, hg⟩
  refine this.bind fun j d hj => ?_
  split
  · exact pure hj.1
  · rename_i hd
    have hin := good_in h hj.2 hd
    exact (pop1 h hj.1).bind fun i _ hi => pure (by omega)

/-- No tuple inside, so that the reader is not copied. -/
theorem tyValidate (h : Twin b b' s tail tail') : ∀ (t : FTy), NoTuple t → ∀ {n : Nat}, n ≤ s.length →
    Alike b b' t.validate n (fun k _ => k = s.length + 1)
  | .core t, _, n, hn => by
    rw [FTy.validate]
    exact coreValidate h hn t
  | .range c t, ht, n, hn => by
    rw [FTy.validate]
    refine (rangeHead h hn).bind fun k more hk => ?_
    cases more with
    | true => exact tyValidate h t ht (by simpa using hk)
    | false => exact pure (by simpa using hk)
  | .tuple _ _, ht, _, _ => ht.elim
  | .optional t, ht, n, hn => by
    rw [FTy.validate]
    exact tyValidate h t ht hn
  | .monostate, _, n, hn => by
    rw [FTy.validate]
    exact (readIf h hn '}').bind fun k _ hk => pure ((good_last h hk.2).1 rfl)
  | .variant _, _, n, hn => by
    rw [FTy.validate]
    exact (readIf h hn '}').bind fun k _ hk => pure ((good_last h hk.2).1 rfl)

theorem tyParse (h : Twin b b' s tail tail') : ∀ (t : FTy), NoTuple t → ∀ (d : Option Bool) {n : Nat}, n ≤ s.length →
    Alike b b' (Fmtr.parseWith d t.fresh) n (fun _ _ => True)
  | .core t, _, d, n, hn => by
    rw [FTy.fresh]
    cases d <;>
    · simp only [Fmtr.parseWith]
      exact (parseSpecs h hn _).bind fun k x hk => pure trivial
  | .range c t, ht, d, n, hn => by
    rw [FTy.fresh, Fmtr.parseWith]
    refine (pRangeHead h hn).bind fun k ⟨_, _⟩ hk => ?_
    exact (tyParse h t ht _ hk).bind fun _ _ _ => pure trivial
  | .tuple _ _, ht, _, _, _ => ht.elim
  | .optional t, ht, d, n, hn => by
    rw [FTy.fresh, Fmtr.parseWith]
    exact (tyParse h t ht _ hn).bind fun _ _ _ => pure trivial
  | .monostate, _, d, n, hn => by
    rw [FTy.fresh, Fmtr.parseWith]
    exact (readIf h hn '}').bind fun k _ hk => pure trivial
  | .variant _, _, d, n, hn => by
    rw [FTy.fresh, Fmtr.parseWith]
    exact (readIf h hn '}').bind fun k _ hk => pure trivial

end Alike

/-! ### Arguments -/

/-- An argument looks at its field only: it rejects the specification, or it reads all of it. -/
def FArg.Local (a : FArg) : Prop :=
  ∀ (b b' : Reader) (s tail tail' : Str), Twin b b' s tail tail' →
    ((∃ u e, a.validate b = .err u e) ∧ ∃ u e, a.validate b' = .err u e) ∨
    (a.validate b = .ok (b.adv (s.length + 1)) () ∧ a.validate b' = .ok (b'.adv (s.length + 1)) () ∧
      ∃ act, a.parse b = .ok (b.adv (s.length + 1)) act ∧ a.parse b' = .ok (b'.adv (s.length + 1)) act)

theorem local_of {a : FArg} (ht : a.Tame) (hs : ∀ r r', r.Inv → a.validate r = .ok r' () → ∃ act, a.parse r = .ok r' act)
    (h1 : ∀ b b' s tail tail', Twin b b' s tail tail' → Alike b b' a.validate 0 (fun k _ => k = s.length + 1))
    (h2 : ∀ b b' s tail tail', Twin b b' s tail tail' → Alike b b' a.parse 0 (fun _ _ => True)) : a.Local := by
  intro b b' s tail tail' h
  rcases h1 b b' s tail tail' h with ⟨u, u', e, g1, g2⟩ | ⟨x, g1, g2⟩ | ⟨k, _, g1, g2, rfl⟩
  · exact Or.inl ⟨⟨u, e, g1⟩, u', e, g2⟩
  · rcases ht b h.left.1 with ⟨_, _, g⟩ | ⟨_, _, _, _, g⟩
    · rw [show b.adv 0 = b from rfl, g] at g1; cases g1
    · rw [show b.adv 0 = b from rfl, g] at g1; cases g1
  · right
    obtain ⟨act, ga⟩ := hs b _ h.left.1 g1
    obtain ⟨act', ga'⟩ := hs b' _ h.right.1 g2
    refine ⟨g1, g2, act, ga, ?_⟩
    rcases h2 b b' s tail tail' h with ⟨u, u', e, g3, g4⟩ | ⟨x, g3, g4⟩ | ⟨k, act2, g3, g4, _⟩
    · rw [show b.adv 0 = b from rfl, ga] at g3; cases g3
    · rw [show b.adv 0 = b from rfl, ga] at g3; cases g3
    · rw [show b.adv 0 = b from rfl, ga] at g3
      rw [show b'.adv 0 = b' from rfl, ga'] at g4
      rw [ga']
      obtain ⟨_, rfl⟩ := ok_inj g3
      obtain ⟨_, rfl⟩ := ok_inj g4
      rfl

theorem fresh_parse {ty : FTy} {v : FVal} (hn : NoTuple ty) (hv : HasType v ty) {r r' : Reader} (hr : r.Inv)
    (h : ty.validate r = .ok r' ()) : ∃ f, ty.fresh.parse r = .ok r' f := by
  obtain ⟨act, h1, _⟩ := value_sound hn hv r.src r r' rfl hr h
  have h1 : (do let f ← ty.fresh.parse; return v.format f : M Reader (Fmt Unit)) r = .ok r' act := h1
  obtain ⟨r2, f, h2, h3⟩ := bind_ok_inv h1
  obtain ⟨rfl, _⟩ := ok_inj h3
  exact ⟨f, h2⟩

theorem value_local {ty : FTy} {v : FVal} (hn : NoTuple ty) (hv : HasType v ty) : (v.farg ty).Local := by
  refine local_of (value_tame hn v) ?_ (fun b b' s tail tail' h => Alike.tyValidate h ty hn (Nat.zero_le _)) ?_
  · intro r r' hr h
    obtain ⟨f, hf⟩ := fresh_parse hn hv hr h
    exact ⟨_, (M.bind_ok hf).trans rfl⟩
  · intro b b' s tail tail' h
    exact (Alike.tyParse h ty hn none (Nat.zero_le _)).bind fun _ _ _ => Alike.pure trivial

theorem dynamic_local {ty : FTy} {v : FVal} (hn : NoTuple ty) (hv : HasType v ty) (w p : Int) :
    (v.dynamic ty w p).Local := by
  refine local_of (value_tame hn v) ?_ (fun b b' s tail tail' h => Alike.tyValidate h ty hn (Nat.zero_le _)) ?_
  · intro r r' hr h
    obtain ⟨f, hf⟩ := fresh_parse hn hv hr h
    exact ⟨_, (M.bind_ok hf).trans rfl⟩
  · intro b b' s tail tail' h
    exact (Alike.tyParse h ty hn none (Nat.zero_le _)).bind fun _ _ _ => Alike.pure trivial

theorem nested_local (str : Str) (args : List FArg) : (formatArgs str args).Local := by
  refine local_of ?_ ?_ ?_ ?_
  · intro r hr
    rcases matchBrace_cases hr with ⟨r', e, h⟩ | ⟨tail, h⟩
    · exact Or.inl ⟨r', e, M.bind_err h⟩
    · refine Or.inr ⟨['}'], tail, by simp, h, ?_⟩
      exact (M.bind_ok (matchBrace h)).trans rfl
  · intro r r' hr h
    obtain ⟨r2, c, h2, h3⟩ := bind_ok_inv h
    obtain ⟨rfl, _⟩ := ok_inj h3
    exact ⟨_, (M.bind_ok h2).trans rfl⟩
  · intro b b' s tail tail' h
    exact (Alike.readIf h (Nat.zero_le _) '}').bind fun k _ hk => Alike.pure ((Alike.good_last h hk.2).1 rfl)
  · intro b b' s tail tail' h
    exact (Alike.readIf h (Nat.zero_le _) '}').bind fun k _ hk => Alike.pure trivial

theorem core_local {a : CoreArg} : a.farg.Local := by
  refine local_of (core_tame a) ?_ (fun b b' s tail tail' h => Alike.coreValidate h (Nat.zero_le _) a.ty) ?_
  · intro r r' hr h
    obtain ⟨s, _, _, h3⟩ := C27_formatter_parse_agrees_with_validate a r r' hr h
    exact ⟨_, h3⟩
  · intro b b' s tail tail' h
    exact (Alike.parseSpecs h (Nat.zero_le _) {}).bind fun _ _ _ => Alike.pure trivial

/-! ### Format strings -/

theorem uscan_field {pend l : Str} {d : Char} {n : Nat} (hd : d ≠ '{') :
    Unchecked.scan pend ('{' :: d :: l) n = some (n + 1, true, if pend ≠ [] then [pend] else []) := by
  rw [Unchecked.scan, if_pos rfl, if_neg hd]

theorem uscan_open2 {pend l : Str} {n k : Nat} {f : Bool} {ps : List Str}
    (h : Unchecked.scan [] l (n + 2) = some (k, f, ps)) :
    Unchecked.scan pend ('{' :: '{' :: l) n = some (k, f, (pend ++ ['{']) :: ps) := by
  rw [Unchecked.scan, if_pos rfl, if_pos rfl, h]

theorem uscan_close2 {pend l : Str} {n k : Nat} {f : Bool} {ps : List Str}
    (h : Unchecked.scan [] l (n + 2) = some (k, f, ps)) :
    Unchecked.scan pend ('}' :: '}' :: l) n = some (k, f, (pend ++ ['}']) :: ps) := by
  rw [Unchecked.scan, if_neg (by decide), if_pos rfl, h]

/-- The pieces of literal text do not depend on the field that follows. -/
theorem scan_pieces (d d' : Char) (hd : d ≠ '{') (hd' : d' ≠ '{') (tl tl' : Str) :
    ∀ (lit pend : Str) (n n' : Nat), ∃ pieces,
      Unchecked.scan pend (escBraces lit ++ '{' :: d :: tl) n = some (n + (escBraces lit).length + 1, true, pieces) ∧
      Unchecked.scan pend (escBraces lit ++ '{' :: d' :: tl') n' = some (n' + (escBraces lit).length + 1, true, pieces) := by
  intro lit
  induction lit with
  | nil => exact fun pend n n' => ⟨if pend ≠ [] then [pend] else [], uscan_field hd, uscan_field hd'⟩
  | cons c l ih =>
    intro pend n n'
    rw [escBraces_cons]
    by_cases h1 : c = '{'
    · subst h1
      obtain ⟨pieces, g1, g2⟩ := ih [] (n + 2) (n' + 2)
      refine ⟨(pend ++ ['{']) :: pieces, ?_, ?_⟩
      · rw [if_pos rfl]
        refine (uscan_open2 g1).trans ?_
        simp only [List.length_append, List.length_cons, List.length_nil]
        congr 2; omega
      · rw [if_pos rfl]
        refine (uscan_open2 g2).trans ?_
        simp only [List.length_append, List.length_cons, List.length_nil]
        congr 2; omega
    · by_cases h2 : c = '}'
      · subst h2
        obtain ⟨pieces, g1, g2⟩ := ih [] (n + 2) (n' + 2)
        refine ⟨(pend ++ ['}']) :: pieces, ?_, ?_⟩
        · rw [if_neg h1, if_pos rfl]
          refine (uscan_close2 g1).trans ?_
          simp only [List.length_append, List.length_cons, List.length_nil]
          congr 2; omega
        · rw [if_neg h1, if_pos rfl]
          refine (uscan_close2 g2).trans ?_
          simp only [List.length_append, List.length_cons, List.length_nil]
          congr 2; omega
      · obtain ⟨pieces, g1, g2⟩ := ih (pend ++ [c]) (n + 1) (n' + 1)
        rw [if_neg h1, if_neg h2]
        refine ⟨pieces, (uscan_other pend h1 h2 _ _).trans (g1.trans ?_), (uscan_other pend h1 h2 _ _).trans (g2.trans ?_)⟩ <;>
        · simp only [List.length_append, List.length_cons, List.length_nil]
          congr 2; omega

/-- Reading the literal text and the head of two fields that differ in their numbers. -/
theorem parse_twin {p p' : PSt} {lit idx idx' rest rest' : Str} {colon : Bool}
    (hat : p.rdr.At (escBraces lit ++ '{' :: (idx ++ ((if colon then [':'] else []) ++ rest))))
    (hat' : p'.rdr.At (escBraces lit ++ '{' :: (idx' ++ ((if colon then [':'] else []) ++ rest'))))
    (hd : ∀ c ∈ idx, isDigit c = true) (hd' : ∀ c ∈ idx', isDigit c = true)
    (hb : colon = false → rest.head? = some '}') (hb' : colon = false → rest'.head? = some '}')
    (hm : (idx = [] ∧ p.positional ≠ some true) ∨ (idx ≠ [] ∧ p.positional ≠ some false ∧ numeralValue 10 idx < 256))
    (hm' : (idx' = [] ∧ p'.positional ≠ some true) ∨
      (idx' ≠ [] ∧ p'.positional ≠ some false ∧ numeralValue 10 idx' < 256)) :
    ∃ q k q' k', Checked.parse p = .ok q k ∧ Checked.parse p' = .ok q' k' ∧
      HeadRead { p with rdr := p.rdr.adv ((escBraces lit).length + 1) } q k idx colon ∧
      HeadRead { p' with rdr := p'.rdr.adv ((escBraces lit).length + 1) } q' k' idx' colon ∧
      ∃ pieces : List Str, ∀ ops, Unchecked.parse ⟨p, ops⟩ = .ok ⟨q, ops ++ pieces.map WOp.str⟩ k ∧
        Unchecked.parse ⟨p', ops⟩ = .ok ⟨q', ops ++ pieces.map WOp.str⟩ k' := by
  obtain ⟨q, k, g1, g2, g3⟩ := parse_fwd hat hd hb hm
  obtain ⟨q', k', g1', g2', g3'⟩ := parse_fwd hat' hd' hb' hm'
  refine ⟨q, k, q', k', g1, g1', g2, g2', ?_⟩
  obtain ⟨d, tl, hdt, hne⟩ := field_head hd hb
  obtain ⟨d', tl', hdt', hne'⟩ := field_head hd' hb'
  obtain ⟨pieces, s1, s2⟩ := scan_pieces d d' hne hne' tl tl' lit [] 0 0
  rw [← hdt] at s1
  rw [← hdt'] at s2
  refine ⟨pieces, fun ops => ?_⟩
  obtain ⟨ps, u1, _⟩ := g3 ops
  obtain ⟨ps', u1', _⟩ := g3' ops
  unfold Unchecked.parse at u1 u1' ⊢
  simp only [hat.2, hat'.2, s1, s2] at u1 u1' ⊢
  have hx : ∀ {r : Run PSt Nat} {a c : List WOp} {q : PSt} {k : Nat},
      (match r with
        | .ok p k => Run.ok (⟨p, a⟩ : FSt) k
        | .err p e => .err ⟨p, a⟩ e
        | .bad b => .bad b) = .ok ⟨q, c⟩ k → r = .ok q k := by
    intro r a c q k h
    cases r with
    | ok p k2 =>
      simp only [Run.ok.injEq, FSt.mk.injEq] at h
      rw [h.1.1, h.2]
    | err p e => cases h
    | bad b => cases h
  simp only [Bool.not_true, Bool.false_eq_true, if_false] at u1 u1' ⊢
  rw [hx u1, hx u1']
  exact ⟨rfl, rfl⟩

/-- Fields with numbers from `i` on. -/
def numberFrom : Nat → List (Str × Field) → List (Str × Field)
  | _, [] => []
  | i, x :: segs => (x.1, { x.2 with idx := numeral false 10 i }) :: numberFrom (i + 1) segs

/-- The same calls and the same result. -/
def SameRun (x y : Run FSt Unit) : Prop :=
  (∃ f f', x = .ok f () ∧ y = .ok f' () ∧ f.ops = f'.ops) ∨
  (∃ f f' e, x = .err f e ∧ y = .err f' e ∧ f.ops = f'.ops) ∨ ∃ b, x = .bad b ∧ y = .bad b

theorem SameRun.runOn {x y : Run FSt Unit} (h : SameRun x y) {σ : Type} [BufferImpl σ] (s : σ) :
    Emio.runOn x s = Emio.runOn y s := by
  rcases h with ⟨f, f', rfl, rfl, h⟩ | ⟨f, f', e, rfl, rfl, h⟩ | ⟨b, rfl, rfl⟩
  · simp only [Emio.runOn, h]
  · simp only [Emio.runOn, h]
  · rfl

theorem loop_twin (args : List FArg) (hl : ∀ a ∈ args, a.Local) (hn : args.length ≤ 128) (last : Str) :
    ∀ (segs : List (Str × Field)), (∀ x ∈ segs, x.2.idx = [] ∧ ∃ s, x.2.body = s ++ ['}'] ∧ '}' ∉ s ∧ (x.2.colon = false → s = [])) →
      ∀ (i fuel fuel' : Nat) (p p' : PSt) (matched : Bitset) (ops : List WOp),
      segs.length < fuel → segs.length < fuel' → i ≤ args.length → p.incr = i →
      p.positional ≠ some true → p'.positional ≠ some false →
      p.rdr.At (segsText segs ++ escBraces last) → p'.rdr.At (segsText (numberFrom i segs) ++ escBraces last) →
      validateLoop args fuel p matched = validateLoop args fuel' p' matched ∧
      (validateLoop args fuel p matched = .ok () true →
        SameRun (formatLoop args fuel ⟨p, ops⟩) (formatLoop args fuel' ⟨p', ops⟩)) := by
  intro segs
  induction segs with
  | nil =>
    intro _ i fuel fuel' p p' matched ops hf hf' _ _ _ _ hat hat'
    obtain ⟨fuel, rfl⟩ : ∃ k, fuel = k + 1 := ⟨fuel - 1, by omega⟩
    obtain ⟨fuel', rfl⟩ : ∃ k, fuel' = k + 1 := ⟨fuel' - 1, by omega⟩
    have hat : p.rdr.At (escBraces last) := by simpa [segsText] using hat
    have hat' : p'.rdr.At (escBraces last) := by simpa [segsText, numberFrom] using hat'
    obtain ⟨g1, g2⟩ := parse_fwd_end hat
    obtain ⟨g1', g2'⟩ := parse_fwd_end hat'
    obtain ⟨ps, u, _⟩ := g2 ops
    obtain ⟨ps', u', _⟩ := g2' ops
    constructor
    · rw [validateLoop, validateLoop, g1, g1']
      simp only [if_true]
    · intro _
      rw [formatLoop, formatLoop, M.bind_ok u, M.bind_ok u', if_pos rfl, if_pos rfl]
      refine Or.inl ⟨_, _, rfl, rfl, ?_⟩
      simp only
      unfold Unchecked.parse at u u'
      simp only [hat.2, hat'.2] at u u'
      cases hs : Unchecked.scan [] (escBraces last) 0 with
      | none => rw [hs] at u; cases u
      | some x =>
        obtain ⟨a, b, c⟩ := x
        rw [hs] at u u'
        simp only at u u'
        cases b with
        | true =>
          have hc := scan_lit last [] 0
          rw [List.append_nil] at hc
          simp only [Checked.scan] at hc
          obtain ⟨lit, rest, e1, e2, e3, e4, e5⟩ := scan_inv _ _ rfl 0 _ false hc
          obtain ⟨ps, e6, _⟩ := e5 []
          rw [hs] at e6
          simp at e6
        | false =>
          simp only [Bool.not_false, if_true] at u u'
          have h1 := (Run.ok.inj u).1
          have h2 := (Run.ok.inj u').1
          have h1 := (FSt.mk.inj h1).2
          have h2 := (FSt.mk.inj h2).2
          rw [← h1, ← h2]
  | cons x segs ih =>
    intro hx i fuel fuel' p p' matched ops hf hf' hi hinc hpos hpos' hat hat'
    obtain ⟨fuel, rfl⟩ : ∃ k, fuel = k + 1 := ⟨fuel - 1, by omega⟩
    obtain ⟨fuel', rfl⟩ : ∃ k, fuel' = k + 1 := ⟨fuel' - 1, by omega⟩
    obtain ⟨lit, f⟩ := x
    obtain ⟨hidx, s, hbody, hfree, hcol⟩ := hx (lit, f) (by simp)
    simp only at hidx hbody hcol
    obtain ⟨nd1, nd2, nd3⟩ := numeral_digits i
    have hat : p.rdr.At (escBraces lit ++ '{' :: ([] ++ ((if f.colon then [':'] else []) ++
        (s ++ '}' :: (segsText segs ++ escBraces last))))) := by
      simpa [segsText_cons, Field.text, hidx, hbody] using hat
    have hat' : p'.rdr.At (escBraces lit ++ '{' :: (numeral false 10 i ++ ((if f.colon then [':'] else []) ++
        (s ++ '}' :: (segsText (numberFrom (i + 1) segs) ++ escBraces last))))) := by
      simpa [numberFrom, segsText_cons, Field.text, hbody] using hat'
    obtain ⟨q, k, q', k', g1, g2, g3, g4, pieces, g5⟩ := parse_twin hat hat' (by simp)
      (fun c hc => by rw [isDigit_eq]; exact nd2 c hc)
      (fun h => by rw [hcol h]; rfl) (fun h => by rw [hcol h]; rfl) (Or.inl ⟨rfl, hpos⟩)
      (Or.inr ⟨nd1, hpos', by rw [nd3]; omega⟩)
    have hk : k = i := by
      rcases g3.mode with ⟨_, _, _, _, h⟩ | ⟨h, _⟩
      · exact h.trans hinc
      · exact absurd rfl h
    have hk' : k' = i := by
      rcases g4.mode with ⟨h, _⟩ | ⟨_, _, _, _, h, _⟩
      · exact absurd h nd1
      · exact h.trans nd3
    subst hk
    subst hk'
    have hq : q.positional = some false ∧ q.incr = (k' + 1) % 256 := by
      rcases g3.mode with ⟨_, _, h1, h2, _⟩ | ⟨h, _⟩
      · exact ⟨h1, by rw [h2]; simp only [hinc]⟩
      · exact absurd rfl h
    have hq' : q'.positional = some true := by
      rcases g4.mode with ⟨h, _⟩ | ⟨_, _, h, _⟩
      · exact absurd h nd1
      · exact h
    obtain ⟨r1, _⟩ := parse_field_at hat g3
    obtain ⟨r2, _⟩ := parse_field_at hat' g4
    have hno : k' ≠ noMoreArgs := by unfold noMoreArgs; omega
    by_cases hlt : args.length ≤ k'
    · constructor
      · rw [validateLoop, validateLoop, g1, g2]
        simp only
        rw [if_neg hno, if_pos hlt, if_neg hno, if_pos hlt]
      · intro h
        rw [validateLoop, g1] at h
        simp only at h
        rw [if_neg hno, if_pos hlt] at h
        simp at h
    · have hget : args[k']? = some (args[k']'(by omega)) := List.getElem?_eq_getElem _
      have hstep : ∀ {fuel : Nat} {p q : PSt}, Checked.parse p = .ok q k' → validateLoop args (fuel + 1) p matched =
          match matched.set k' with
          | none => .bad .terminate
          | some matched =>
            match (args[k']'(by omega)).validate q.rdr with
            | .bad b => .bad b
            | .err _ _ => .ok () false
            | .ok r _ => validateLoop args fuel { q with rdr := r } matched := by
        intro fuel p q h
        rw [validateLoop, h]
        simp only
        rw [if_neg hno, if_neg hlt]
        simp only [hget]
        cases matched.set k' with
        | none => rfl
        | some m =>
          simp only
          cases (args[k']'(by omega)).validate q.rdr <;> rfl
      rw [hstep g1, hstep g2]
      cases hset : matched.set k' with
      | none => exact ⟨rfl, by simp⟩
      | some m' =>
        simp only
        have hloc := hl _ (List.getElem_mem (by omega : k' < args.length)) q.rdr q'.rdr s _ _ ⟨r1, r2, hfree⟩
        rcases hloc with ⟨⟨u, e, e1⟩, u', e', e2⟩ | ⟨e1, e2, act, e3, e4⟩
        · rw [e1, e2]
          exact ⟨rfl, by simp⟩
        · rw [e1, e2]
          simp only
          have ha1 : (q.rdr.adv (s.length + 1)).At (segsText segs ++ escBraces last) := by
            have : q.rdr.At ((s ++ ['}']) ++ (segsText segs ++ escBraces last)) := by simpa using r1
            simpa using this.adv
          have ha2 : (q'.rdr.adv (s.length + 1)).At (segsText (numberFrom (k' + 1) segs) ++ escBraces last) := by
            have : q'.rdr.At ((s ++ ['}']) ++ (segsText (numberFrom (k' + 1) segs) ++ escBraces last)) := by simpa using r2
            simpa using this.adv
          have hrec := fun ops => ih (fun x h => hx x (by simp [h])) (k' + 1) fuel fuel'
            { q with rdr := q.rdr.adv (s.length + 1) } { q' with rdr := q'.rdr.adv (s.length + 1) } m' ops
            (by simp only [List.length_cons] at hf; omega) (by simp only [List.length_cons] at hf'; omega) (by omega)
            (by simp only; rw [hq.2]; omega) (by simp only; rw [hq.1]; simp) (by simp only; rw [hq']; simp) ha1 ha2
          refine ⟨(hrec ops).1, fun hv => ?_⟩
          rw [formatLoop, formatLoop, M.bind_ok (g5 ops).1, M.bind_ok (g5 ops).2, if_neg hno, if_neg hno]
          simp only [hget]
          have hp1 : ∀ {q : PSt} {o : List WOp}, (args[k']'(by omega)).parse q.rdr = .ok (q.rdr.adv (s.length + 1)) act →
              processArg (args[k']'(by omega)) ⟨q, o⟩ = match act o with
                | .ok ops _ => .ok ⟨{ q with rdr := q.rdr.adv (s.length + 1) }, ops⟩ ()
                | .err ops e => .err ⟨{ q with rdr := q.rdr.adv (s.length + 1) }, ops⟩ e
                | .bad b => .bad b := by
            intro q o h
            unfold processArg
            simp only [h]
            cases act o <;> rfl
          have k1 := hp1 (o := ops ++ pieces.map WOp.str) e3
          have k2 := hp1 (o := ops ++ pieces.map WOp.str) e4
          cases hact : act (ops ++ pieces.map WOp.str) with
          | ok o2 u =>
            rw [hact] at k1 k2
            rw [M.bind_ok k1, M.bind_ok k2]
            exact (hrec o2).2 hv
          | err o2 e =>
            rw [hact] at k1 k2
            rw [M.bind_err k1, M.bind_err k2]
            exact Or.inr (Or.inl ⟨_, _, e, rfl, rfl, rfl⟩)
          | bad b =>
            rw [hact] at k1 k2
            rw [M.bind_bad k1, M.bind_bad k2]
            exact Or.inr (Or.inr ⟨b, rfl, rfl⟩)

/-- Numbers put in from left to right change nothing. -/
theorem numbered_formatTo (segs : List (Str × Field)) (last : Str)
    (hx : ∀ x ∈ segs, x.2.idx = [] ∧ ∃ s, x.2.body = s ++ ['}'] ∧ '}' ∉ s ∧ (x.2.colon = false → s = []))
    (args : List FArg) (hl : ∀ a ∈ args, a.Local) (hn : args.length ≤ 128) :
    validateStr (segsText segs ++ escBraces last) args = validateStr (segsText (numberFrom 0 segs) ++ escBraces last) args ∧
    ∀ {σ : Type} [BufferImpl σ] (s : σ), formatTo (segsText segs ++ escBraces last) args s =
      formatTo (segsText (numberFrom 0 segs) ++ escBraces last) args s := by
  have hlen : ∀ segs : List (Str × Field), segs.length ≤ (segsText segs).length := by
    intro segs
    induction segs with
    | nil => simp
    | cons x segs ih =>
      rw [segsText_cons]
      simp [Field.text]
      omega
  have hnum : ∀ (segs : List (Str × Field)) (i : Nat), (numberFrom i segs).length = segs.length := by
    intro segs
    induction segs with
    | nil => intro i; rfl
    | cons x segs ih => intro i; simp [numberFrom, ih]
  have h := loop_twin args hl hn last segs hx 0 ((segsText segs ++ escBraces last).length + 1)
    ((segsText (numberFrom 0 segs) ++ escBraces last).length + 1) ⟨Reader.ofStr _, none, 0⟩ ⟨Reader.ofStr _, none, 0⟩
    (Bitset.new 128) [] (by have := hlen segs; simp; omega)
    (by have := hlen (numberFrom 0 segs); rw [hnum] at this; simp; omega) (Nat.zero_le _) rfl (by simp) (by simp)
    (Reader.at_ofStr _) (Reader.at_ofStr _)
  refine ⟨h.1, fun {σ} _ s => ?_⟩
  cases segs with
  | nil => rfl
  | cons x segs =>
    have hb : ∀ (x : Str × Field) (segs : List (Str × Field)), checkIfPlainString (segsText (x :: segs) ++ escBraces last) = false := by
      intro x segs
      rw [segsText_cons]
      simp [checkIfPlainString, Field.text]
    have h1 := hb x segs
    have h2 : checkIfPlainString (segsText (numberFrom 0 (x :: segs)) ++ escBraces last) = false := by
      rw [numberFrom]
      exact hb _ _
    unfold formatTo VStr.make
    simp only [h1, h2, Bool.false_eq_true, and_false, if_false]
    have hv : validateStr (segsText (x :: segs) ++ escBraces last) args =
      validateStr (segsText (numberFrom 0 (x :: segs)) ++ escBraces last) args := h.1
    rw [← hv]
    cases hr : validateStr (segsText (x :: segs) ++ escBraces last) args with
    | bad b => rfl
    | err u e => rfl
    | ok u v =>
      cases v with
      | false => rfl
      | true => exact (h.2 hr).runOn s

end Emio
