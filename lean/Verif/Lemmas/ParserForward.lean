import Verif.Lemmas.ParserLoop
/-
What happens to a format string that is given as literal text and fields.
-/
namespace Emio
open Reader Spec

theorem field_head {idx rest : Str} {colon : Bool} (hd : ∀ c ∈ idx, isDigit c = true)
    (hb : colon = false → rest.head? = some '}') :
    ∃ d tl, idx ++ ((if colon then [':'] else []) ++ rest) = d :: tl ∧ d ≠ '{' := by
  cases idx with
  | cons c cs =>
    refine ⟨c, _, rfl, ?_⟩
    rintro rfl
    exact absurd (hd '{' (by simp)) (by decide)
  | nil =>
    cases colon with
    | true => exact ⟨':', _, rfl, by decide⟩
    | false =>
      have := hb rfl
      cases rest with
      | nil => simp at this
      | cons x xs =>
        simp only [List.head?_cons, Option.some.injEq] at this
        subst this
        exact ⟨'}', xs, rfl, by decide⟩

theorem lit_unique {a b : Str} {d e : Char} {x y : Str} (hd : d ≠ '{') (he : e ≠ '{')
    (h : escBraces a ++ '{' :: d :: x = escBraces b ++ '{' :: e :: y) : escBraces a = escBraces b ∧ d :: x = e :: y := by
  have h1 := scan_lit a ('{' :: d :: x) 0
  rw [h, scan_lit, scan_open, scan_open, if_neg hd, if_neg he] at h1
  have hlen : (escBraces a).length = (escBraces b).length := by simp at h1; omega
  have := List.append_inj h hlen
  exact ⟨this.1, by simpa using this.2⟩

theorem lit_not_field {a b : Str} {e : Char} {y : Str} (he : e ≠ '{')
    (h : escBraces a = escBraces b ++ '{' :: e :: y) : False := by
  have h1 := scan_lit a [] 0
  rw [List.append_nil, h, scan_lit, scan_open, if_neg he] at h1
  simp [Checked.scan] at h1

theorem escBraces_cons' (c : Char) (l : Str) :
    escBraces (c :: l) = c :: ((if c = '{' ∨ c = '}' then [c] else []) ++ escBraces l) := by
  rw [escBraces_cons]
  by_cases h1 : c = '{'
  · simp [h1]
  · by_cases h2 : c = '}'
    · simp [h2]
    · simp [h1, h2]

theorem escBraces_inj : ∀ {a b : Str}, escBraces a = escBraces b → a = b := by
  intro a
  induction a with
  | nil =>
    intro b h
    cases b with
    | nil => rfl
    | cons c cs => rw [escBraces_cons'] at h; simp [escBraces] at h
  | cons c cs ih =>
    intro b h
    cases b with
    | nil => rw [escBraces_cons'] at h; simp [escBraces] at h
    | cons d ds =>
      rw [escBraces_cons', escBraces_cons'] at h
      simp only [List.cons.injEq] at h
      obtain ⟨rfl, h⟩ := h
      rw [ih (List.append_cancel_left h)]

theorem noDigit_head {c : Char} {l : Str} (h : NoDigit (c :: l)) : isDigit c = false := by
  simpa [NoDigit] using h

theorem colon_unique {c1 c2 : Bool} {r1 r2 : Str} (h1 : c1 = false → r1.head? = some '}')
    (h2 : c2 = false → r2.head? = some '}')
    (h : (if c1 then [':'] else []) ++ r1 = (if c2 then [':'] else []) ++ r2) : c1 = c2 ∧ r1 = r2 := by
  cases c1 <;> cases c2 <;> simp at h ⊢
  · exact h
  · have := h1 rfl; rw [h] at this; simp at this
  · have := h2 rfl; rw [← h] at this; simp at this
  · exact h

theorem colon_noDigit {c : Bool} {r : Str} (h : c = false → r.head? = some '}') :
    NoDigit ((if c then [':'] else []) ++ r) := by
  cases c with
  | true => exact noDigit_cons (by decide)
  | false =>
    have := h rfl
    cases r with
    | nil => simp at this
    | cons x xs => simp at this; subst this; exact noDigit_cons (by decide)

theorem idx_unique {i1 i2 r1 r2 : Str} (h1 : ∀ c ∈ i1, isDigit c = true) (h2 : ∀ c ∈ i2, isDigit c = true)
    (n1 : NoDigit r1) (n2 : NoDigit r2) (h : i1 ++ r1 = i2 ++ r2) : i1 = i2 ∧ r1 = r2 := by
  induction i1 generalizing i2 with
  | nil =>
    cases i2 with
    | nil => exact ⟨rfl, h⟩
    | cons c cs =>
      simp only [List.nil_append, List.cons_append] at h
      rw [h] at n1
      have := noDigit_head n1
      have := h2 c (by simp)
      simp_all
  | cons c cs ih =>
    cases i2 with
    | nil =>
      simp only [List.nil_append, List.cons_append] at h
      rw [← h] at n2
      have := noDigit_head n2
      have := h1 c (by simp)
      simp_all
    | cons d ds =>
      simp only [List.cons_append, List.cons.injEq] at h
      obtain ⟨rfl, h⟩ := h
      obtain ⟨rfl, h'⟩ := ih (fun c hc => h1 c (by simp [hc])) (fun c hc => h2 c (by simp [hc])) h
      exact ⟨rfl, h'⟩

theorem fieldName_fwd {p : PSt} {idx rest : Str} (hat : p.rdr.At (idx ++ rest)) (hd : ∀ c ∈ idx, isDigit c = true)
    (hnd : NoDigit rest) (hne : rest ≠ [])
    (hm : (idx = [] ∧ p.positional ≠ some true) ∨ (idx ≠ [] ∧ p.positional ≠ some false ∧ numeralValue 10 idx < 256)) :
    ∃ p' k, Checked.fieldName p = .ok p' k := by
  unfold Checked.fieldName
  rcases hm with ⟨rfl, hp⟩ | ⟨hi, hp, hv⟩
  · cases rest with
    | nil => exact absurd rfl hne
    | cons c l =>
      simp only [List.nil_append] at hat
      rw [M.bind_ok (onReader_ok hat.peek), M.bind_ok (M.get_run _)]
      simp only
      rw [if_neg (by rw [noDigit_head hnd]; simp), if_neg hp]
      exact ⟨_, _, rfl⟩
  · cases idx with
    | nil => exact absurd rfl hi
    | cons c cs =>
      have hpk : p.rdr.At (c :: (cs ++ rest)) := hat
      rw [M.bind_ok (onReader_ok hpk.peek), M.bind_ok (M.get_run _)]
      simp only
      rw [if_pos (hd c (by simp)), if_neg hp]
      have := parse_u8 hat ⟨hi, hd⟩ hnd
      rw [if_pos hv] at this
      rw [M.bind_ok (onReader_ok this), M.bind_ok (M.modify_run _ _)]
      exact ⟨_, _, rfl⟩

theorem replacementField_fwd {p : PSt} {idx rest : Str} {colon : Bool}
    (hat : p.rdr.At (idx ++ ((if colon then [':'] else []) ++ rest))) (hd : ∀ c ∈ idx, isDigit c = true)
    (hb : colon = false → rest.head? = some '}')
    (hm : (idx = [] ∧ p.positional ≠ some true) ∨ (idx ≠ [] ∧ p.positional ≠ some false ∧ numeralValue 10 idx < 256)) :
    ∃ p' k, Checked.replacementField p = .ok p' k := by
  have hne : (if colon then [':'] else []) ++ rest ≠ [] := by
    cases colon with
    | true => simp
    | false =>
      have := hb rfl
      cases rest <;> simp at this ⊢
  obtain ⟨p', k, h⟩ := fieldName_fwd hat hd (colon_noDigit hb) hne hm
  unfold Checked.replacementField
  rw [M.bind_ok h]
  obtain ⟨idx', rest', hat', hn, hnd⟩ := fieldName_inv hat.1 h
  obtain ⟨rfl, rfl⟩ := idx_unique hd hn.digits (colon_noDigit hb) hnd (hat.unique hat')
  have hat2 : p'.rdr.At ((if colon then [':'] else []) ++ rest) := by rw [hn.rdr]; exact hat.adv
  cases colon with
  | true =>
    have : p'.rdr.At (':' :: rest) := hat2
    rw [M.bind_ok (onReader_ok this.peek), if_neg (by decide), if_pos rfl]
    exact ⟨_, _, rfl⟩
  | false =>
    have := hb rfl
    cases rest with
    | nil => simp at this
    | cons c l =>
      simp at this
      subst this
      have : p'.rdr.At ('}' :: l) := hat2
      rw [M.bind_ok (onReader_ok this.peek), if_pos rfl]
      exact ⟨_, _, rfl⟩

/-- Reading literal text and the head of a field. -/
theorem parse_fwd {p : PSt} {lit idx rest : Str} {colon : Bool}
    (hat : p.rdr.At (escBraces lit ++ '{' :: (idx ++ ((if colon then [':'] else []) ++ rest))))
    (hd : ∀ c ∈ idx, isDigit c = true) (hb : colon = false → rest.head? = some '}')
    (hm : (idx = [] ∧ p.positional ≠ some true) ∨ (idx ≠ [] ∧ p.positional ≠ some false ∧ numeralValue 10 idx < 256)) :
    ∃ p' k, Checked.parse p = .ok p' k ∧
      HeadRead { p with rdr := p.rdr.adv ((escBraces lit).length + 1) } p' k idx colon ∧
      ∀ ops, ∃ pieces : List Str,
        Unchecked.parse ⟨p, ops⟩ = .ok ⟨p', ops ++ pieces.map WOp.str⟩ k ∧ pieces.flatten = lit := by
  have hex : ∃ p' k, Checked.parse p = .ok p' k := by
    unfold Checked.parse
    obtain ⟨d, tl, hdt, hne⟩ := field_head hd hb
    rw [hat.2, hdt, scan_lit, scan_open, if_neg hne]
    simp only
    have h1 : p.rdr.At ((escBraces lit ++ ['{']) ++ (idx ++ ((if colon then [':'] else []) ++ rest))) := by simpa using hat
    have h2 := h1.adv
    have hlen : (escBraces lit ++ ['{']).length = 0 + (escBraces lit).length + 1 := by simp
    rw [hlen] at h2
    exact replacementField_fwd (p := { p with rdr := p.rdr.adv (0 + (escBraces lit).length + 1) }) h2 hd hb hm
  obtain ⟨p', k, h⟩ := hex
  refine ⟨p', k, h, ?_⟩
  rcases parse_inv hat.1 h with ⟨lit', hat', _⟩ | ⟨lit', idx', colon', rest', hat', hh, hb', hu⟩
  · obtain ⟨d, tl, hdt, hne⟩ := field_head hd hb
    have := hat'.unique hat
    rw [hdt] at this
    exact (lit_not_field hne this).elim
  · have heq := hat.unique hat'
    obtain ⟨d, tl, hdt, hne⟩ := field_head hd hb
    obtain ⟨d', tl', hdt', hne'⟩ := field_head hh.digits hb'
    rw [hdt, hdt'] at heq
    obtain ⟨e1, e2⟩ := lit_unique hne hne' heq
    rw [← hdt, ← hdt'] at e2
    obtain rfl := escBraces_inj e1
    obtain ⟨rfl, e3⟩ := idx_unique hd hh.digits (colon_noDigit hb) (colon_noDigit hb') e2
    obtain ⟨rfl, rfl⟩ := colon_unique hb hb' e3
    exact ⟨hh, hu⟩

/-- Reading the literal text at the end. -/
theorem parse_fwd_end {p : PSt} {lit : Str} (hat : p.rdr.At (escBraces lit)) :
    Checked.parse p = .ok { p with rdr := p.rdr.adv (escBraces lit).length } noMoreArgs ∧
      ∀ ops, ∃ pieces : List Str, Unchecked.parse ⟨p, ops⟩ =
        .ok ⟨{ p with rdr := p.rdr.adv (escBraces lit).length }, ops ++ pieces.map WOp.str⟩ noMoreArgs ∧
        pieces.flatten = lit := by
  have hsc : Checked.scan p.rdr.rest 0 = some ((escBraces lit).length, false) := by
    rw [hat.2]
    have := scan_lit lit [] 0
    rw [List.append_nil] at this
    rw [this]
    simp [Checked.scan]
  have h : Checked.parse p = .ok { p with rdr := p.rdr.adv (escBraces lit).length } noMoreArgs := by
    unfold Checked.parse
    rw [hsc]
    rfl
  refine ⟨h, ?_⟩
  rcases parse_inv hat.1 h with ⟨lit', hat', _, _, hu⟩ | ⟨lit', idx', colon', rest', hat', hh, hb', hu⟩
  · obtain rfl := escBraces_inj (hat.unique hat')
    exact hu
  · obtain ⟨d', tl', hdt', hne'⟩ := field_head hh.digits hb'
    have := hat.unique hat'
    rw [hdt'] at this
    exact (lit_not_field hne' this).elim

/-- The argument of each field accepts its specification and is replaced by the text. -/
def ReadsAll (args : List FArg) (k : Nat) : Nat → List Field → List Str → Prop
  | _, [], [] => True
  | i, f :: fs, t :: ts => (∃ a, args[f.argument i]? = some a ∧ a.Reads f.body t k) ∧ ReadsAll args k (i + 1) fs ts
  | _, _, _ => False

theorem explicit_argsFrom : ∀ (fs : List Field) (i j : Nat), (∀ f ∈ fs, f.idx ≠ []) → argsFrom i fs = argsFrom j fs := by
  intro fs
  induction fs with
  | nil => intros; rfl
  | cons f fs ih =>
    intro i j hf
    rw [argsFrom, argsFrom, ih (i + 1) (j + 1) (fun f' hf' => hf f' (by simp [hf']))]
    simp [Field.argument, hf f (by simp)]

theorem explicit_readsAll {args : List FArg} {k : Nat} : ∀ (fs : List Field) (ts : List Str) (i j : Nat),
    (∀ f ∈ fs, f.idx ≠ []) → ReadsAll args k i fs ts → ReadsAll args k j fs ts := by
  intro fs
  induction fs with
  | nil => intro ts i j _ h; cases ts <;> simpa [ReadsAll] using h
  | cons f fs ih =>
    intro ts i j hf h
    cases ts with
    | nil => simp [ReadsAll] at h
    | cons t ts =>
      rw [ReadsAll] at h ⊢
      refine ⟨?_, ih ts (i + 1) (j + 1) (fun f' hf' => hf f' (by simp [hf'])) h.2⟩
      have := h.1
      simp only [Field.argument, if_neg (hf f (by simp))] at this ⊢
      exact this

/-- Text of segments. -/
def segsText (segs : List (Str × Field)) : Str := segs.flatMap fun s => escBraces s.1 ++ s.2.text

theorem segsText_cons (s : Str × Field) (segs : List (Str × Field)) :
    segsText (s :: segs) = escBraces s.1 ++ s.2.text ++ segsText segs := by simp [segsText]

/-- Output of segments. -/
def segsOut (segs : List (Str × Field)) (texts : List Str) : Str := (segs.zip texts).flatMap fun s => s.1.1 ++ s.2

/-- Like `FArg.Reads`, when `tail` is the rest of the format string. -/
def FArg.ReadsBefore (a : FArg) (body text : Str) (k : Nat) (tail : Str) : Prop :=
  ∀ r, r.At (body ++ tail) → a.validate r = .ok (r.adv body.length) () ∧
    ∃ act, a.parse r = .ok (r.adv body.length) act ∧ Emits act text k

/-- Like `ReadsAll`, with the text behind each field; `behind` is the text behind all of them. -/
def ReadsBehind (args : List FArg) (k : Nat) (behind : Str) : Nat → List (Str × Field) → List Str → Prop
  | _, [], [] => True
  | i, s :: segs, t :: ts =>
    (∃ a, args[s.2.argument i]? = some a ∧ a.ReadsBefore s.2.body t k (segsText segs ++ behind)) ∧
      ReadsBehind args k behind (i + 1) segs ts
  | _, _, _ => False

/-- The same for literal text behind the fields. -/
abbrev ReadsSegs (args : List FArg) (k : Nat) (last : Str) := ReadsBehind args k (escBraces last)

/-- Reading the literal text before a field for argument number 255: the parser takes the string to be at its end. -/
theorem parse_fwd_stop {p : PSt} {lit tail : Str} (hat : p.rdr.At (escBraces lit ++ tail)) (hst : Begins255 tail)
    (hm : p.positional ≠ some false) :
    ∃ p', Checked.parse p = .ok p' noMoreArgs ∧
      ∀ ops, ∃ pieces : List Str, Unchecked.parse ⟨p, ops⟩ = .ok ⟨p', ops ++ pieces.map WOp.str⟩ noMoreArgs ∧
        pieces.flatten = lit := by
  obtain ⟨ds, c, rest, rfl, hne, hd, hval, hc⟩ := hst
  simp only [← isDigit_eq] at hd
  have key : ∀ (colon : Bool) (rest' : Str), c :: rest = (if colon then [':'] else []) ++ rest' →
      (colon = false → rest'.head? = some '}') →
      ∃ p', Checked.parse p = .ok p' noMoreArgs ∧
      ∀ ops, ∃ pieces : List Str, Unchecked.parse ⟨p, ops⟩ = .ok ⟨p', ops ++ pieces.map WOp.str⟩ noMoreArgs ∧
        pieces.flatten = lit := by
    intro colon rest' he hb
    rw [he] at hat
    obtain ⟨p', k, h1, hh, hu⟩ := parse_fwd hat hd hb (Or.inr ⟨hne, hm, by omega⟩)
    have hk : k = noMoreArgs := by
      rcases hh.mode with ⟨i1, _⟩ | ⟨_, _, _, _, i5, _⟩
      · exact absurd i1 hne
      · rw [i5, hval]; rfl
    subst hk
    exact ⟨p', h1, hu⟩
  rcases hc with rfl | rfl
  · exact key false ('}' :: rest) rfl (by simp)
  · exact key true rest rfl (by simp)

theorem readsSegs_of_all {args : List FArg} {k : Nat} {behind : Str} : ∀ (segs : List (Str × Field)) (ts : List Str) (i : Nat),
    ReadsAll args k i (segs.map (·.2)) ts → ReadsBehind args k behind i segs ts := by
  intro segs
  induction segs with
  | nil => intro ts i h; cases ts <;> simpa [ReadsAll, ReadsBehind] using h
  | cons s segs ih =>
    intro ts i h
    cases ts with
    | nil => simp [ReadsAll] at h
    | cons t ts =>
      rw [List.map_cons, ReadsAll] at h
      obtain ⟨⟨a, h1, h2⟩, h3⟩ := h
      exact ⟨⟨a, h1, fun r hr => h2 r _ hr⟩, ih ts (i + 1) h3⟩

theorem explicit_readsSegs {args : List FArg} {k : Nat} {behind : Str} : ∀ (segs : List (Str × Field)) (ts : List Str)
    (i j : Nat), (∀ f ∈ segs.map (·.2), f.idx ≠ []) → ReadsBehind args k behind i segs ts → ReadsBehind args k behind j segs ts := by
  intro segs
  induction segs with
  | nil => intro ts i j _ h; cases ts <;> simpa [ReadsBehind] using h
  | cons s segs ih =>
    intro ts i j hf h
    cases ts with
    | nil => simp [ReadsBehind] at h
    | cons t ts =>
      rw [ReadsBehind] at h ⊢
      refine ⟨?_, ih ts (i + 1) (j + 1) (fun f' hf' => hf f' (by simp at hf' ⊢; right; exact hf')) h.2⟩
      have := h.1
      simp only [Field.argument, if_neg (hf s.2 (by simp))] at this ⊢
      exact this

theorem loop_forward_tail (args : List FArg) (hlen : args.length ≤ 128) (kk : Nat) (last tail : Str) :
    ∀ (segs : List (Str × Field)) (texts : List Str) (fuel : Nat) (p : PSt) (matched : Bitset) (S : List Nat)
      (ops : List WOp), Bitset.Rep matched S → matched.bits = 128 → p.rdr.At (segsText segs ++ (escBraces last ++ tail)) →
      segs.length < fuel → (∀ s ∈ segs, s.2.WellFormed) → ModeOk p.positional (segs.map (·.2)) → p.incr ≤ 128 →
      (∀ k ∈ argsFrom p.incr (segs.map (·.2)), k < args.length) →
      ReadsBehind args kk (escBraces last ++ tail) p.incr segs texts →
      (tail = [] ∨ Begins255 tail ∧ (∀ f ∈ segs.map (·.2), f.idx ≠ []) ∧ p.positional ≠ some false) →
      (∃ b, validateLoop args fuel p matched = .ok () b ∧
        (b = true ↔ ∀ k < args.length, k ∈ S ∨ k ∈ argsFrom p.incr (segs.map (·.2)))) ∧
      ∃ f new, formatLoop args fuel ⟨p, ops⟩ = .ok f () ∧ f.ops = ops ++ new ∧
        render new = segsOut segs texts ++ last ∧ ∀ op ∈ new, op.Fine ∧ op.need ≤ kk := by
  intro segs
  induction segs with
  | nil =>
    intro texts fuel p matched S ops hrep hbits hat hfuel hwf hmode hincr hargs hreads htail
    cases fuel with
    | zero => simp at hfuel
    | succ fuel =>
      have hend : ∃ p', Checked.parse p = .ok p' noMoreArgs ∧
          ∀ ops, ∃ pieces : List Str, Unchecked.parse ⟨p, ops⟩ = .ok ⟨p', ops ++ pieces.map WOp.str⟩ noMoreArgs ∧
            pieces.flatten = last := by
        have hat' : p.rdr.At (escBraces last ++ tail) := by simpa [segsText] using hat
        rcases htail with rfl | ⟨h, _, hm⟩
        · rw [List.append_nil] at hat'
          exact ⟨_, parse_fwd_end hat'⟩
        · exact parse_fwd_stop hat' h hm
      obtain ⟨p', h1, h2⟩ := hend
      rw [validateLoop, h1, formatLoop]
      obtain ⟨pieces, g1, g2⟩ := h2 ops
      rw [M.bind_ok g1, if_pos rfl]
      simp only [if_true]
      refine ⟨⟨_, rfl, ?_⟩, _, pieces.map WOp.str, rfl, rfl, ?_, ?_⟩
      · rw [Bitset.rep_allFirst hrep]; simp [argsFrom]
      · rw [map_str_render, g2]
        simp [segsOut]
      · intro op ho
        have := map_str_fine pieces op ho
        exact ⟨this.1, by omega⟩
  | cons s segs ih =>
    intro texts fuel p matched S ops hrep hbits hat hfuel hwf hmode hincr hargs hreads htail
    obtain ⟨lit, idx, colon, body⟩ := s
    cases fuel with
    | zero => simp at hfuel
    | succ fuel =>
      cases texts with
      | nil => simp [ReadsBehind] at hreads
      | cons text texts =>
        rw [ReadsBehind] at hreads
        obtain ⟨⟨a, ha, hra⟩, hreads⟩ := hreads
        have hwf1 := hwf _ (List.mem_cons_self ..)
        have hd : ∀ c ∈ idx, isDigit c = true := fun c hc => by rw [isDigit_eq]; exact hwf1.idx c hc
        have hk1 := hargs (Field.argument p.incr ⟨idx, colon, body⟩) (by simp [argsFrom])
        have hat1 : p.rdr.At (escBraces lit ++ '{' :: (idx ++ ((if colon then [':'] else []) ++
            (body ++ (segsText segs ++ (escBraces last ++ tail)))))) := by
          rw [segsText_cons] at hat
          simpa [Field.text] using hat
        have hb : colon = false → (body ++ (segsText segs ++ (escBraces last ++ tail))).head? = some '}' := by
          intro hc
          have := hwf1.body hc
          simp only at this
          cases body with
          | nil => simp at this
          | cons x xs => simpa using this
        have hm : (idx = [] ∧ p.positional ≠ some true) ∨
            (idx ≠ [] ∧ p.positional ≠ some false ∧ numeralValue 10 idx < 256) := by
          rcases hmode with ⟨h1, h2⟩ | ⟨h1, h2⟩
          · exact Or.inl ⟨h1 ⟨idx, colon, body⟩ (by simp), h2⟩
          · have h3 := h1 ⟨idx, colon, body⟩ (by simp)
            simp only at h3
            simp only [Field.argument, if_neg h3] at hk1
            exact Or.inr ⟨h3, h2, by omega⟩
        obtain ⟨p', n, h1, hh, hu⟩ := parse_fwd hat1 hd hb hm
        obtain ⟨pieces, g1, g2⟩ := hu ops
        obtain ⟨hat2, hadv⟩ := parse_field_at hat1 hh
        have hnn : n = Field.argument p.incr ⟨idx, colon, body⟩ := by
          rcases hh.mode with ⟨h1, _, _, _, h5⟩ | ⟨h1, _, _, _, h5, _⟩
          · simp only at h5; simp [Field.argument, h1, h5]
          · simp [Field.argument, h1, h5]
        have hnm : n ≠ noMoreArgs := by unfold noMoreArgs; omega
        have hset := Bitset.rep_set hrep n
        rw [if_pos (by omega)] at hset
        obtain ⟨m', hs, hrep', hbits'⟩ := hset
        obtain ⟨hval, act, hpar, hem⟩ := hra p'.rdr hat2
        rw [validateLoop, h1, formatLoop, M.bind_ok g1, if_neg hnm]
        simp only
        rw [if_neg hnm, if_neg (by omega), hs]
        simp only
        rw [hnn, ha]
        simp only
        rw [hval]
        simp only
        obtain ⟨n2, e1, e2, e3, e4⟩ := hem (ops ++ pieces.map WOp.str)
        have hpa : processArg a ⟨p', ops ++ pieces.map WOp.str⟩ =
            .ok ⟨{ p' with rdr := p'.rdr.adv body.length }, ops ++ pieces.map WOp.str ++ n2⟩ () := by
          unfold processArg
          simp only [hpar, e1]
        rw [M.bind_ok hpa]
        have hpi : p'.incr ≤ 128 ∧ argsFrom p'.incr (segs.map (·.2)) = argsFrom (p.incr + 1) (segs.map (·.2)) ∧
            ReadsBehind args kk (escBraces last ++ tail) p'.incr segs texts ∧ ModeOk p'.positional (segs.map (·.2)) := by
          rcases hh.mode with ⟨i1, i2, i3, i4, i5⟩ | ⟨i1, i2, i3, i4, i5, _⟩
          · simp only at i4 i5
            have : p'.incr = p.incr + 1 := by omega
            rw [this]
            refine ⟨by omega, rfl, hreads, ?_⟩
            rcases hmode with ⟨j1, j2⟩ | ⟨j1, j2⟩
            · exact Or.inl ⟨fun f hf => j1 f (by simp at hf ⊢; right; exact hf), by rw [i3]; simp⟩
            · exact absurd i1 (j1 ⟨idx, colon, body⟩ (by simp))
          · simp only at i4 i5
            rcases hmode with ⟨j1, j2⟩ | ⟨j1, j2⟩
            · exact absurd (j1 ⟨idx, colon, body⟩ (by simp)) i1
            · have hex : ∀ f ∈ segs.map (·.2), f.idx ≠ [] := fun f hf => j1 f (by simp at hf ⊢; right; exact hf)
              exact ⟨by omega, explicit_argsFrom _ _ _ hex, explicit_readsSegs _ _ _ _ hex hreads,
                Or.inr ⟨hex, by rw [i3]; simp⟩⟩
        obtain ⟨q1, q2, q3, q4⟩ := hpi
        have htail' : tail = [] ∨ Begins255 tail ∧ (∀ f ∈ segs.map (·.2), f.idx ≠ []) ∧ p'.positional ≠ some false := by
          rcases htail with h | ⟨h1, h2, h3⟩
          · exact Or.inl h
          · refine Or.inr ⟨h1, fun f hf => h2 f (by simp at hf ⊢; right; exact hf), ?_⟩
            rcases hh.mode with ⟨i1, _⟩ | ⟨_, _, i3, _⟩
            · exact absurd i1 (h2 ⟨idx, colon, body⟩ (by simp))
            · rw [i3]; simp
        obtain ⟨⟨b, b1, b2⟩, f, new, f1, f2, f3, f4⟩ := ih texts fuel { p' with rdr := p'.rdr.adv body.length } m'
          (n :: S) (ops ++ pieces.map WOp.str ++ n2) hrep' (by omega) hat2.adv (by simpa using hfuel)
          (fun s hs => hwf s (List.mem_cons_of_mem _ hs)) q4 q1
          (by simp only; rw [q2]; exact fun k hk => hargs k (by simp only [List.map_cons, argsFrom, List.mem_cons]; exact Or.inr hk)) q3 htail'
        refine ⟨⟨b, b1, ?_⟩, f, pieces.map WOp.str ++ n2 ++ new, f1, by rw [f2]; simp, ?_, ?_⟩
        · rw [b2]
          simp only
          rw [q2]
          simp only [List.map_cons, argsFrom, List.mem_cons, hnn]
          constructor <;> intro h k hk <;> have hx := h k hk
          · exact hx.elim (fun h => h.elim (fun h => Or.inr (Or.inl h)) Or.inl) fun h => Or.inr (Or.inr h)
          · exact hx.elim (fun h => Or.inl (Or.inr h)) fun h => h.elim (fun h => Or.inl (Or.inl h)) Or.inr
        · simp only [render_append, map_str_render, g2, e2, f3]
          simp [segsOut]
        · intro op ho
          simp only [List.mem_append] at ho
          rcases ho with (ho | ho) | ho
          · have := map_str_fine pieces op ho
            exact ⟨this.1, by omega⟩
          · exact ⟨e3 op ho, e4 op ho⟩
          · exact f4 op ho

theorem loop_forward_segs (args : List FArg) (hlen : args.length ≤ 128) (kk : Nat) (last : Str) :
    ∀ (segs : List (Str × Field)) (texts : List Str) (fuel : Nat) (p : PSt) (matched : Bitset) (S : List Nat)
      (ops : List WOp), Bitset.Rep matched S → matched.bits = 128 → p.rdr.At (segsText segs ++ escBraces last) →
      segs.length < fuel → (∀ s ∈ segs, s.2.WellFormed) → ModeOk p.positional (segs.map (·.2)) → p.incr ≤ 128 →
      (∀ k ∈ argsFrom p.incr (segs.map (·.2)), k < args.length) →
      ReadsSegs args kk last p.incr segs texts →
      (∃ b, validateLoop args fuel p matched = .ok () b ∧
        (b = true ↔ ∀ k < args.length, k ∈ S ∨ k ∈ argsFrom p.incr (segs.map (·.2)))) ∧
      ∃ f new, formatLoop args fuel ⟨p, ops⟩ = .ok f () ∧ f.ops = ops ++ new ∧
        render new = segsOut segs texts ++ last ∧ ∀ op ∈ new, op.Fine ∧ op.need ≤ kk :=
  fun segs texts fuel p matched S ops h1 h2 h3 h4 h5 h6 h7 h8 h9 =>
    loop_forward_tail args hlen kk last [] segs texts fuel p matched S ops h1 h2 (by rw [List.append_nil]; exact h3) h4 h5 h6 h7 h8
      (by rw [List.append_nil]; exact h9) (Or.inl rfl)

theorem loop_forward (args : List FArg) (hlen : args.length ≤ 128) (kk : Nat) (last : Str) :
    ∀ (segs : List (Str × Field)) (texts : List Str) (fuel : Nat) (p : PSt) (matched : Bitset) (S : List Nat)
      (ops : List WOp), Bitset.Rep matched S → matched.bits = 128 → p.rdr.At (segsText segs ++ escBraces last) →
      segs.length < fuel → (∀ s ∈ segs, s.2.WellFormed) → ModeOk p.positional (segs.map (·.2)) → p.incr ≤ 128 →
      (∀ k ∈ argsFrom p.incr (segs.map (·.2)), k < args.length) →
      ReadsAll args kk p.incr (segs.map (·.2)) texts →
      (∃ b, validateLoop args fuel p matched = .ok () b ∧
        (b = true ↔ ∀ k < args.length, k ∈ S ∨ k ∈ argsFrom p.incr (segs.map (·.2)))) ∧
      ∃ f new, formatLoop args fuel ⟨p, ops⟩ = .ok f () ∧ f.ops = ops ++ new ∧
        render new = segsOut segs texts ++ last ∧ ∀ op ∈ new, op.Fine ∧ op.need ≤ kk :=
  fun segs texts fuel p matched S ops h1 h2 h3 h4 h5 h6 h7 h8 h9 =>
    loop_forward_segs args hlen kk last segs texts fuel p matched S ops h1 h2 h3 h4 h5 h6 h7 h8
      (readsSegs_of_all _ _ _ h9)

end Emio
