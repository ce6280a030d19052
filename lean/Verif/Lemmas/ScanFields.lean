import Verif.Lemmas.ScanTemplate
/-
What the fields of a scan string read.
-/
namespace Emio
open Reader Spec

/-! ### Strings -/

theorem complexLoop_le (fmt : Str) : ∀ (inp f : Str) (k m n : Nat), complexLoop fmt inp f k m = .ok () n →
    n ≤ k + inp.length := by
  intro inp
  induction inp with
  | nil =>
    intro f k m n h
    cases f with
    | nil => unfold complexLoop at h; simp at h; simp; omega
    | cons => unfold complexLoop at h; simp at h
  | cons c cs ih =>
    intro f k m n h
    cases f with
    | nil => unfold complexLoop at h; simp at h; omega
    | cons x f =>
      unfold complexLoop at h
      split at h
      · simp at h
      · simp at h; omega
      · split at h
        · have := ih _ _ _ _ h; simp; omega
        · have := ih _ _ _ _ h; simp; omega

theorem complex_inv {fmt : Str} {r r' : Reader} {l a : Str} (h : r.At l) (hr : readStringComplex fmt r = .ok r' a) :
    ∃ rest, l = a ++ rest ∧ r' = r.adv a.length := by
  unfold readStringComplex at hr
  split at hr
  · simp at hr
  · simp at hr
  · rename_i n hn
    obtain ⟨rfl, rfl⟩ := ok_inj hr
    rw [h.2] at hn ⊢
    have := complexLoop_le _ _ _ _ _ _ hn
    simp only [Nat.zero_add] at this
    refine ⟨l.drop n, by simp, ?_⟩
    have hl : (l.take n).length = n := by simp; omega
    have he : l = l.take n ++ l.drop n := by simp
    rw [hl]
    rw [he] at h
    exact pop_at h hl

theorem readUntilStr_at {r : Reader} {l : Str} (h : r.At l) (d : Str) :
    (l = [] → readUntilStr d { keepDelimiter := true } r = .err r .eof) ∧
    (∀ a b, l = a ++ (d ++ b) → l ≠ [] → EndsBefore a d →
      readUntilStr d { keepDelimiter := true } r = .ok (r.adv a.length) a) ∧
    (∀ r' a, readUntilStr d { keepDelimiter := true } r = .ok r' a → ∃ rest, l = a ++ rest ∧ r' = r.adv a.length ∧
      (d <+: rest → EndsBefore a d)) := by
  unfold readUntilStr
  rw [readUntilPos_eq _ _ d.length r h.1 (findStr_hyp d r), h.2]
  refine ⟨fun hl => by rw [if_pos hl], fun a b hl hne he => ?_, fun r' a hr => ?_⟩
  · have hf : findStr d l = some a.length := by
      rw [findStr_some]
      refine ⟨⟨by rw [hl]; simp, by rw [hl]; simp⟩, fun j hj hp => he j hj ?_⟩
      rw [hl, ← List.append_assoc] at hp
      rw [List.drop_append_of_le_length (by simp; omega)] at hp
      exact List.prefix_of_prefix_length_le hp (List.prefix_append _ _) (by simp; omega)
    rw [if_neg hne, hf]
    simp only [if_true, Bool.false_eq_true, if_false]
    rw [hl]
    simp [adv]
  · by_cases hl : l = []
    · rw [if_pos hl] at hr; simp at hr
    · rw [if_neg hl] at hr
      cases hf : findStr d l with
      | none =>
        rw [hf] at hr
        simp only [Bool.false_eq_true, if_false] at hr
        obtain ⟨rfl, rfl⟩ := ok_inj hr
        refine ⟨[], by simp, ?_, ?_⟩
        · have := h.pos
          unfold adv
          rw [this]
        · intro hd
          have hd' : d = [] := List.prefix_nil.1 hd
          subst hd'
          rw [findStr_none] at hf
          exact absurd List.nil_prefix (hf 0 (by simp))
      | some i =>
        rw [hf] at hr
        simp only [if_true, Bool.false_eq_true, if_false] at hr
        obtain ⟨rfl, rfl⟩ := ok_inj hr
        obtain ⟨⟨hi, hp⟩, hfirst⟩ := (findStr_some d l i).1 hf
        have hlen : (l.take i).length = i := by simp; omega
        refine ⟨l.drop i, by simp, by simp [adv]; omega, ?_⟩
        intro hd j hj hpre
        simp only [Nat.add_zero] at hlen hj hpre
        rw [hlen] at hj
        refine hfirst j hj ?_
        obtain ⟨b, hb⟩ := hd
        have hl' : l = (l.take i ++ d) ++ b := by
          rw [List.append_assoc, hb]; simp
        have : l.drop j = (l.take i ++ d).drop j ++ b := by
          conv_lhs => rw [hl']
          rw [List.drop_append_of_le_length (by simp; omega)]
        rw [this]
        exact hpre.trans (List.prefix_append _ _)

/-- Nothing, or a replacement field. -/
def Stop (tail : Str) : Prop := tail = [] ∨ ∃ d tl, tail = '{' :: d :: tl ∧ d ≠ '{'

theorem stop_nil : Stop [] := Or.inl rfl

theorem stop_of_tail {tail : Str} {P : Prop} (h : tail = [] ∨ Begins255 tail ∧ P) : Stop tail := by
  rcases h with h | ⟨⟨ds, c, rest, rfl, hne, hd, _⟩, _⟩
  · exact Or.inl h
  · right
    obtain ⟨a, as, rfl⟩ := List.exists_cons_of_ne_nil hne
    refine ⟨a, as ++ c :: rest, rfl, ?_⟩
    rintro rfl
    exact absurd (hd '{' (by simp)) (by decide)

theorem not_all {a b c : Prop} (h : ¬ a ∨ ¬ b ∨ ¬ c) : ¬ (a ∧ b ∧ c) := by tauto

/-- The text of a scan string behind a field. -/
theorem behind_cases (segs : List (Str × ScanHole)) (last tail : Str) (hd : ∀ s ∈ segs, ∀ c ∈ s.2.idx, isDigit c = true)
    (ht : Stop tail) :
    (segs = [] ∧ last = [] ∧ tail = [] ∧ ScanTemplate.text ⟨segs, last⟩ ++ tail = []) ∨
    ((segs ≠ [] ∨ last ≠ [] ∨ tail ≠ []) ∧ ScanTemplate.text ⟨segs, last⟩ ++ tail ≠ [] ∧
      ('{' ∉ following last segs → '}' ∉ following last segs →
        (ScanTemplate.text ⟨segs, last⟩ ++ tail = following last segs ∨
          ∃ d tl, ScanTemplate.text ⟨segs, last⟩ ++ tail = following last segs ++ '{' :: d :: tl ∧ d ≠ '{'))) := by
  cases segs with
  | nil =>
    rw [scanTemplate_text_nil]
    rcases ht with rfl | ⟨d, tl, rfl, hne⟩
    · rw [List.append_nil]
      by_cases hl : last = []
      · left; rw [hl]; exact ⟨rfl, rfl, rfl, rfl⟩
      · right
        refine ⟨Or.inr (Or.inl hl), ?_, fun h1 h2 => Or.inl (escBraces_plain h1 h2)⟩
        cases last with
        | nil => exact absurd rfl hl
        | cons c l => rw [escBraces_cons']; simp
    · right
      refine ⟨Or.inr (Or.inr (by simp)), by simp, fun h1 h2 => Or.inr ⟨d, tl, ?_, hne⟩⟩
      simp only [following] at h1 h2 ⊢
      rw [escBraces_plain h1 h2]
  | cons s segs =>
    obtain ⟨lit, hole⟩ := s
    right
    rw [scanTemplate_text_cons, hole_sp_text]
    simp only [List.append_assoc, List.cons_append]
    refine ⟨Or.inl (by simp), by simp, fun h1 h2 => Or.inr ?_⟩
    have hb : hole.spec.isSome = false →
        (hole.sp.text ++ '}' :: (ScanTemplate.text ⟨segs, last⟩ ++ tail)).head? = some '}' := by
      intro h
      have : hole.spec = none := by cases hh : hole.spec <;> simp_all
      simp [ScanHole.sp, this, ScanSpec.text]
    obtain ⟨d, tl, hdt, hne⟩ := field_head (hd (lit, hole) (by simp)) hb
    refine ⟨d, tl, ?_, hne⟩
    rw [hdt]
    simp only [following] at h1 h2 ⊢
    rw [escBraces_plain h1 h2]

theorem brace_unique : ∀ {x a : Str} {c e : Char} {y z : Str}, x ++ c :: y = a ++ e :: z → '{' ∉ x → '}' ∉ x → '{' ∉ a →
    '}' ∉ a → (c = '{' ∨ c = '}') → (e = '{' ∨ e = '}') → x = a ∧ c = e ∧ y = z := by
  intro x
  induction x with
  | nil =>
    intro a c e y z h _ _ h3 h4 h5 _
    cases a with
    | nil => simpa using h
    | cons d a =>
      simp only [List.nil_append, List.cons_append, List.cons.injEq] at h
      rw [h.1] at h5
      rcases h5 with rfl | rfl <;> simp at h3 h4
  | cons d x ih =>
    intro a c e y z h h1 h2 h3 h4 h5 h6
    cases a with
    | nil =>
      simp only [List.nil_append, List.cons_append, List.cons.injEq] at h
      rw [← h.1] at h6
      rcases h6 with rfl | rfl <;> simp at h1 h2
    | cons f a =>
      simp only [List.cons_append, List.cons.injEq] at h
      simp only [List.mem_cons, not_or] at h1 h2 h3 h4
      obtain ⟨rfl, rfl, rfl⟩ := ih h.2 h1.2 h2.2 h3.2 h4.2 h5 h6
      exact ⟨by rw [h.1], rfl, rfl⟩

theorem readString_inv {sp : ScanSpec} (fits : sp.Fits) {segs : List (Str × ScanHole)} {last tail : Str}
    (stop : Stop tail) (hd : ∀ s ∈ segs, ∀ c ∈ s.2.idx, isDigit c = true) {r r' : Reader} {l a : Str} (h : r.At l)
    (hr : readString sp.meaning (.ofStr (ScanTemplate.text ⟨segs, last⟩ ++ tail)) r = .ok r' a) :
    ∃ rest, l = a ++ rest ∧ r' = r.adv a.length ∧ (∀ w ∈ sp.size, a.length = w) ∧
      (sp.size = none → (segs = [] → last = [] → tail = [] → rest = []) ∧
        ((segs ≠ [] ∨ last ≠ [] ∨ tail ≠ []) → '{' ∉ following last segs → '}' ∉ following last segs →
          following last segs <+: rest → EndsBefore a (following last segs))) := by
  obtain ⟨hw, hn⟩ := readString_at sp.meaning (at_ofStr (ScanTemplate.text ⟨segs, last⟩ ++ tail)) r
  cases hsz : sp.size with
  | some w =>
    obtain ⟨hw1, hw2⟩ := scanWidth_some hsz
    have hlt := fits w (by simp [hsz])
    rw [hw hw2] at hr
    have h6 := C06_read_n_chars (toSize sp.meaning.width) r
    rw [hw1, toSize_nat w hlt.2] at h6 hr
    rw [h.2] at h6
    by_cases hl : l.length < w
    · rw [h6.2 hl] at hr; simp at hr
    · rw [h6.1 (l.take w) (l.drop w) (by simp) (by simp; omega)] at hr
      obtain ⟨rfl, rfl⟩ := ok_inj hr
      refine ⟨l.drop w, by simp, by simp [adv]; omega, by simp; omega, by simp⟩
  | none =>
    have hwn := scanWidth_none hsz
    obtain ⟨b1, b2, b3⟩ := hn hwn
    rcases behind_cases segs last tail hd stop with ⟨rfl, rfl, rfl, ht⟩ | ⟨hne, htn, hb⟩
    · rw [b1 ht] at hr
      unfold readRemaining at hr
      obtain ⟨rfl, rfl⟩ := ok_inj hr
      rw [h.2]
      refine ⟨[], by simp, by unfold adv; rw [h.pos], by simp, fun _ => ⟨fun _ _ _ => rfl, by simp⟩⟩
    · have hno := not_all hne
      rcases brace_split (ScanTemplate.text ⟨segs, last⟩ ++ tail) with ⟨g1, g2⟩ | ⟨x, c, y, hx, g1, g2, g3⟩
      · rw [b2 htn g1 g2] at hr
        obtain ⟨rest, e1, e2, e3⟩ := (readUntilStr_at h _).2.2 _ _ hr
        refine ⟨rest, e1, e2, by simp, fun _ => ⟨fun a b c => absurd ⟨a, b, c⟩ hno, fun _ f1 f2 f3 => ?_⟩⟩
        rcases hb f1 f2 with ht | ⟨d, tl, ht, _⟩
        · rw [ht] at e3; exact e3 f3
        · rw [ht] at g1; simp at g1
      · have hu : '{' ∉ following last segs → '}' ∉ following last segs →
            x = following last segs ∧ c = '{' ∧ ∃ d tl, y = d :: tl ∧ d ≠ '{' := by
          intro f1 f2
          rcases hb f1 f2 with ht | ⟨d', tl, ht, hd'⟩
          · exfalso
            rw [hx] at ht
            have : c ∈ following last segs := by rw [← ht]; simp
            rcases g3 with rfl | rfl
            · exact f1 this
            · exact f2 this
          · rw [hx] at ht
            obtain ⟨rfl, rfl, rfl⟩ := brace_unique ht g1 g2 f1 f2 g3 (Or.inl rfl)
            exact ⟨rfl, rfl, d', tl, rfl, hd'⟩
        rw [b3 x c y hx g1 g2 g3] at hr
        cases y with
        | nil => simp at hr
        | cons d y =>
          simp only at hr
          split at hr
          · obtain ⟨rest, e1, e2, e3⟩ := (readUntilStr_at h _).2.2 _ _ hr
            refine ⟨rest, e1, e2, by simp, fun _ => ⟨fun a b c => absurd ⟨a, b, c⟩ hno, fun _ f1 f2 f3 => ?_⟩⟩
            rw [(hu f1 f2).1] at e3
            exact e3 f3
          · rename_i hc
            obtain ⟨rest, e1, e2⟩ := complex_inv h hr
            refine ⟨rest, e1, e2, by simp, fun _ => ⟨fun a b c => absurd ⟨a, b, c⟩ hno, fun _ f1 f2 f3 => ?_⟩⟩
            exfalso
            obtain ⟨_, hc1, d', tl, hy, hd'⟩ := hu f1 f2
            simp only [List.cons.injEq] at hy
            exact hc ⟨hc1, by rw [hy.1]; exact hd'⟩

theorem readString_fwd {sp : ScanSpec} (fits : sp.Fits) {segs : List (Str × ScanHole)} {last tail : Str}
    (stop : Stop tail) (hd : ∀ s ∈ segs, ∀ c ∈ s.2.idx, isDigit c = true) {r : Reader} {a rest : Str} {v : ScanVal} (h : r.At (a ++ rest))
    (hr : Readable .string sp a v (following last segs) (segs = [] ∧ last = [] ∧ tail = []) rest)
    (hf : following last segs <+: rest) :
    readString sp.meaning (.ofStr (ScanTemplate.text ⟨segs, last⟩ ++ tail)) r = .ok (r.adv a.length) a := by
  obtain ⟨rfl, hw', hno⟩ := hr
  obtain ⟨hw, hn⟩ := readString_at sp.meaning (at_ofStr (ScanTemplate.text ⟨segs, last⟩ ++ tail)) r
  cases hsz : sp.size with
  | some w =>
    obtain ⟨hw1, hw2⟩ := scanWidth_some hsz
    have hlt := fits w (by simp [hsz])
    have hl := hw' w (by simp [hsz])
    rw [hw hw2, hw1, toSize_nat w hlt.2, (C06_read_n_chars w r).1 a rest h.2 hl]
    simp [adv, hl]
  | none =>
    obtain ⟨b1, b2, b3⟩ := hn (scanWidth_none hsz)
    obtain ⟨k1, k2⟩ := hno hsz
    rcases behind_cases segs last tail hd stop with ⟨rfl, rfl, rfl, ht⟩ | ⟨hne, htn, hb⟩
    · rw [b1 ht]
      obtain rfl := k1 ⟨rfl, rfl, rfl⟩
      unfold readRemaining
      rw [h.2]
      have := h.pos
      simp only [List.append_nil] at this ⊢
      unfold adv
      rw [this]
    · obtain ⟨f1, f2, f3, f4⟩ := k2 (not_all hne)
      obtain ⟨tl, rfl⟩ := hf
      have key := (readUntilStr_at h (following last segs)).2.1 a tl rfl f4 f3
      rcases hb f1 f2 with ht | ⟨d, tl', ht, hd'⟩
      · rw [b2 htn (by rw [ht]; exact f1) (by rw [ht]; exact f2), ht]
        exact key
      · rw [b3 _ '{' (d :: tl') ht f1 f2 (Or.inl rfl)]
        simp only
        rw [if_pos ⟨trivial, hd'⟩]
        exact key

/-! ### Fields -/

theorem tyscan_inv (ty : ScanTy) {sp : ScanSpec} (wf : sp.WellFormed) (fits : sp.Fits) (hal : ScanTy.Allows ty sp)
    {segs : List (Str × ScanHole)} {last tail : Str} (stop : Stop tail) (hd : ∀ s ∈ segs, ∀ c ∈ s.2.idx, isDigit c = true) {st st' : Slot}
    {l : Str} {u : Unit} (h : st.inp.At l)
    (hr : ty.scan sp.meaning (.ofStr (ScanTemplate.text ⟨segs, last⟩ ++ tail)) st = .ok st' u) :
    ∃ (piece rest : Str) (v : ScanVal), l = piece ++ rest ∧ Spec.Accepts ty sp piece v rest ∧
      st' = ⟨st.inp.adv piece.length, v⟩ ∧
      (ty = .string → sp.size = none → (segs = [] → last = [] → tail = [] → rest = []) ∧
        ((segs ≠ [] ∨ last ≠ [] ∨ tail ≠ []) → '{' ∉ following last segs → '}' ∉ following last segs →
          following last segs <+: rest → EndsBefore piece (following last segs))) := by
  cases ty with
  | char =>
    simp only [ScanTy.scan, readCharArg] at hr
    cases l with
    | nil => rw [h.readChar_nil] at hr; simp at hr
    | cons c l =>
      rw [h.readChar] at hr
      obtain ⟨rfl, _⟩ := ok_inj hr
      exact ⟨[c], l, .char c, rfl, ⟨c, rfl, rfl⟩, rfl, by simp⟩
  | int t =>
    obtain ⟨n, tail, v, e1, e2, e3, e4, e5⟩ := readInteger_inv t wf fits hal h hr
    refine ⟨n.text, tail, .int v, e1, ⟨n, v, rfl, e3.base, e3.nonempty, e3.digits, e2, ?_, rfl, e4, e3.exact⟩, e5, by simp⟩
    intro hs
    have := e3.next
    rwa [if_pos hs] at this
  | string =>
    simp only [ScanTy.scan, readStringArg] at hr
    cases hh : readString sp.meaning (.ofStr (ScanTemplate.text ⟨segs, last⟩ ++ tail)) st.inp with
    | bad b => rw [hh] at hr; simp at hr
    | err r e => rw [hh] at hr; simp at hr
    | ok r a =>
      rw [hh] at hr
      obtain ⟨rfl, _⟩ := ok_inj hr
      obtain ⟨rest, e1, e2, e3, e4⟩ := readString_inv fits stop hd h hh
      exact ⟨a, rest, .str a, e1, ⟨rfl, e3⟩, by rw [e2], fun _ => e4⟩

theorem tyscan_fwd (ty : ScanTy) {sp : ScanSpec} (wf : sp.WellFormed) (fits : sp.Fits) (hal : ScanTy.Allows ty sp)
    {segs : List (Str × ScanHole)} {last tail : Str} (stop : Stop tail) (hd : ∀ s ∈ segs, ∀ c ∈ s.2.idx, isDigit c = true) {st : Slot}
    {piece rest : Str} {v : ScanVal} (h : st.inp.At (piece ++ rest))
    (hr : Readable ty sp piece v (following last segs) (segs = [] ∧ last = [] ∧ tail = []) rest) (hf : following last segs <+: rest) :
    ty.scan sp.meaning (.ofStr (ScanTemplate.text ⟨segs, last⟩ ++ tail)) st = .ok ⟨st.inp.adv piece.length, v⟩ () := by
  cases ty with
  | char =>
    obtain ⟨c, rfl, rfl⟩ := hr
    simp only [ScanTy.scan, readCharArg]
    rw [At.readChar (l := rest) h]
    rfl
  | int t =>
    obtain ⟨n, rfl, rfl, ht, hb, hds, hw, hnext, hfit, hs, hp⟩ := hr
    refine readInteger_fwd t ht wf fits hal h hw hb hds ?_ hnext hfit hs
    intro h1 h2 h3
    rcases hp h1 h2 h3 with g | ⟨g1, g2⟩
    · exact Or.inl g
    · refine Or.inr ⟨g1, ?_⟩
      split
      · rename_i hsz; exact g2 hsz
      · rfl
  | string =>
    have := readString_fwd fits stop hd h hr hf
    obtain ⟨rfl, _⟩ := hr
    simp only [ScanTy.scan, readStringArg, this]

/-! ### The whole scan string -/

theorem onInp_ok_inv {m : M Reader Unit} {io io' : ScanIO} {u : Unit} (h : ScanIO.onInp m io = .ok io' u) :
    ∃ r, m io.inp = .ok r () ∧ io' = ⟨r, io.vars⟩ := by
  unfold ScanIO.onInp at h
  split at h
  · rename_i r _ hr
    exact ⟨r, hr, (ok_inj h).1.symm⟩
  · simp at h
  · simp at h

theorem onVar_ok_inv {n : Nat} {m : M Slot Unit} {io io' : ScanIO} {u : Unit} (h : ScanIO.onVar n m io = .ok io' u) :
    ∃ v sl, io.vars[n]? = some v ∧ m ⟨io.inp, v⟩ = .ok sl () ∧ io' = ⟨sl.inp, io.vars.set n sl.var⟩ := by
  unfold ScanIO.onVar at h
  split at h
  · simp at h
  · rename_i v hv
    split at h
    · rename_i sl _ hm
      exact ⟨v, sl, hv, hm, (ok_inj h).1.symm⟩
    · simp at h
    · simp at h

theorem scans_following {tys : List ScanTy} {last tail : Str} {i : Nat} {segs : List (Str × ScanHole)} {input rest : Str}
    {fields : List (Str × Nat × ScanVal)} (h : Scans tys last tail i segs input fields rest) :
    following last segs <+: input := by
  cases h with
  | done => exact List.prefix_append _ _
  | field => exact List.prefix_append _ _

theorem written_following {tys : List ScanTy} {last tail : Str} {i : Nat} {segs : List (Str × ScanHole)} {input rest : Str}
    {fields : List (Str × Nat × ScanVal)} (h : Written tys last tail i segs input fields rest) :
    following last segs <+: input := by
  cases h with
  | done => exact List.prefix_append _ _
  | field => exact List.prefix_append _ _

/-- The conditions on the fields, from one field on. -/
structure SegsOk (tys : List ScanTy) (i : Nat) (segs : List (Str × ScanHole)) : Prop where
  digits : ∀ s ∈ segs, ∀ c ∈ s.2.idx, isDigit c = true
  grammar : ∀ s ∈ segs, s.2.sp.WellFormed ∧ s.2.sp.Fits
  allowed : ∀ x ∈ (argsFrom i (segs.map (·.2.field))).zip segs, ∃ ty, tys[x.1]? = some ty ∧ ScanTy.Allows ty x.2.2.sp

theorem suits_segsOk {t : ScanTemplate} {tys : List ScanTy} (h : t.Suits tys) : SegsOk tys 0 t.segs :=
  ⟨fun s hs => (scan_field_wf h hs).idx, h.grammar, fun x hx => h.allowed x (by rw [scan_args]; exact hx)⟩

theorem SegsOk.cons {tys : List ScanTy} {i : Nat} {lit : Str} {hole : ScanHole} {segs : List (Str × ScanHole)}
    (h : SegsOk tys i ((lit, hole) :: segs)) :
    (∃ ty, tys[hole.field.argument i]? = some ty ∧ ScanTy.Allows ty hole.sp) ∧ hole.sp.WellFormed ∧ hole.sp.Fits ∧
      SegsOk tys (i + 1) segs := by
  have ha := h.allowed
  simp only [List.map_cons, argsFrom, List.zip_cons_cons, List.mem_cons, forall_eq_or_imp] at ha
  exact ⟨ha.1, (h.grammar (lit, hole) (by simp)).1, (h.grammar (lit, hole) (by simp)).2, fun s hs => h.digits s (by simp [hs]),
    fun s hs => h.grammar s (by simp [hs]), ha.2⟩

theorem scanSegs_inv (tys : List ScanTy) (last : Str) {tail : Str} (stop : Stop tail) : ∀ (segs : List (Str × ScanHole)) (i : Nat) (io io' : ScanIO)
    (l : Str) (u : Unit), SegsOk tys i segs → io.inp.At l → scanSegs tys last tail i segs io = .ok io' u →
    ∃ used fields rest, l = used ++ rest ∧ Scans tys last tail i segs l fields rest ∧ io'.inp = io.inp.adv used.length ∧
      io'.vars = store io.vars (fields.map (·.2)) := by
  intro segs
  induction segs with
  | nil =>
    intro i io io' l u _ hat h
    unfold scanSegs at h
    obtain ⟨r, h1, rfl⟩ := onInp_ok_inv h
    obtain ⟨rest, h2, rfl⟩ := matchLit_inv hat.1 h1
    obtain rfl := hat.unique h2
    exact ⟨last, [], rest, rfl, .done i rest, rfl, rfl⟩
  | cons s segs ih =>
    intro i io io' l u hok hat h
    obtain ⟨lit, hole⟩ := s
    obtain ⟨⟨ty, hty, hal⟩, wf, fits, hok'⟩ := hok.cons
    unfold scanSegs at h
    obtain ⟨io1, _, h1, h⟩ := bind_ok_inv h
    obtain ⟨r1, h1', rfl⟩ := onInp_ok_inv h1
    obtain ⟨l1, h2, rfl⟩ := matchLit_inv hat.1 h1'
    obtain rfl := hat.unique h2
    simp only [hty, (scan_fits_pass fits).2] at h
    obtain ⟨io2, _, h3, h⟩ := bind_ok_inv h
    obtain ⟨v0, sl, hv0, h3', rfl⟩ := onVar_ok_inv h3
    have hat1 : (io.inp.adv lit.length).At l1 := hat.adv
    obtain ⟨piece, input, v, rfl, hacc, rfl, hstr⟩ := tyscan_inv ty wf fits hal stop hok'.digits (st := ⟨_, v0⟩) hat1 h3'
    obtain ⟨used, fields, rest, rfl, e2, e3, e4⟩ := ih (i + 1) _ io' input u hok' hat1.adv h
    refine ⟨lit ++ (piece ++ used), (piece, hole.field.argument i, v) :: fields, rest, by simp,
      .field hty hacc (fun a b => (hstr a b).1) (fun a b c d e => (hstr a b).2 c d e (scans_following e2)) e2, ?_, ?_⟩
    · rw [e3]
      simp [adv, Nat.add_assoc]
    · rw [e4]
      rfl

theorem scanSegs_fwd (tys : List ScanTy) (last : Str) {tail : Str} (stop : Stop tail) {segs : List (Str × ScanHole)} {i : Nat} {l : Str}
    {fields : List (Str × Nat × ScanVal)} {rest : Str} (hw : Written tys last tail i segs l fields rest) :
    ∀ (io : ScanIO), SegsOk tys i segs → io.inp.At l → tys.length ≤ io.vars.length →
    ∃ used, l = used ++ rest ∧
      scanSegs tys last tail i segs io = .ok ⟨io.inp.adv used.length, store io.vars (fields.map (·.2))⟩ () := by
  induction hw with
  | done i rest =>
    intro io _ hat _
    refine ⟨last, rfl, ?_⟩
    unfold scanSegs ScanIO.onInp
    simp only [matchLit_ok hat]
    rfl
  | @field i lit hole segs ty piece v input fields rest hty hread more ih =>
    intro io hok hat hlen
    obtain ⟨⟨ty', hty', hal⟩, wf, fits, hok'⟩ := hok.cons
    rw [hty] at hty'
    obtain rfl := Option.some.inj hty'
    have h1 : ScanIO.onInp (matchLit lit) io = .ok ⟨io.inp.adv lit.length, io.vars⟩ () := by
      unfold ScanIO.onInp
      simp only [matchLit_ok hat]
    have hn : hole.field.argument i < io.vars.length := by
      have := (List.getElem?_eq_some_iff.1 hty).1
      omega
    have hat1 : (io.inp.adv lit.length).At (piece ++ input) := hat.adv
    have h2 := tyscan_fwd ty wf fits hal stop hok'.digits (st := ⟨io.inp.adv lit.length, io.vars[hole.field.argument i]⟩) hat1 hread
      (written_following more)
    have h3 : ScanIO.onVar (hole.field.argument i) (ty.scan hole.sp.meaning (.ofStr (ScanTemplate.text ⟨segs, last⟩ ++ tail)))
        ⟨io.inp.adv lit.length, io.vars⟩ = .ok ⟨(io.inp.adv lit.length).adv piece.length,
          io.vars.set (hole.field.argument i) v⟩ () := by
      unfold ScanIO.onVar
      simp only [List.getElem?_eq_getElem hn, h2]
    obtain ⟨used, rfl, h4⟩ := ih ⟨(io.inp.adv lit.length).adv piece.length, io.vars.set (hole.field.argument i) v⟩ hok'
      hat1.adv (by simpa using hlen)
    refine ⟨lit ++ (piece ++ used), by simp, ?_⟩
    unfold scanSegs
    rw [M.bind_ok h1]
    simp only [hty, (scan_fits_pass fits).2]
    rw [M.bind_ok h3, h4]
    simp only [adv_adv, List.length_append, Nat.add_assoc]
    rfl

end Emio
