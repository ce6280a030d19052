import Verif.Spec.Values
import Verif.Lemmas.Format
/-
Ranges, tuples, optionals and variants: what is read from a format string and what is written.
-/
namespace Emio
open Reader Spec

/-! ### The equations of `format` -/

theorem format_core (a : CoreArg) (t : CoreTy) (s : Specs) : (FVal.core a).format (.core t s) = a.write s := rfl
theorem format_range (vs : List FVal) (o c sep : Str) (f : Fmtr) : (FVal.range vs).format (.range o c sep f) = (do
    emit (.str o)
    FVal.formatRange sep f true vs
    emit (.str c)) := rfl
theorem format_tuple (vs : List FVal) (o c sep : Str) (fs : List Fmtr) : (FVal.tuple vs).format (.tuple o c sep fs) = (do
    emit (.str o)
    FVal.formatTuple sep true vs fs
    emit (.str c)) := rfl
theorem format_none (f : Fmtr) : FVal.none.format (.optional f) = emit (.str ['n', 'o', 'n', 'e']) := rfl
theorem format_some (v : FVal) (f : Fmtr) : (FVal.some v).format (.optional f) = (do
    emit (.str ['o', 'p', 't', 'i', 'o', 'n', 'a', 'l', '('])
    v.format f
    emit (.char ')')) := rfl
theorem format_monostate :
    FVal.monostate.format .monostate = emit (.str ['m', 'o', 'n', 'o', 's', 't', 'a', 't', 'e']) := rfl
theorem format_valueless : FVal.valueless.format .variant = (do
    emit (.str ['v', 'a', 'r', 'i', 'a', 'n', 't', '('])
    emit (.str ['v', 'a', 'l', 'u', 'e', 'l', 'e', 's', 's', ' ', 'b', 'y', ' ',
      'e', 'x', 'c', 'e', 'p', 't', 'i', 'o', 'n'])
    emit (.char ')')) := rfl

/-- The content of a variant. -/
def variantContent (t : FTy) (v : FVal) : Fmt Unit :=
  match v with
  | .core (.char c) => emit (.charEscaped c)
  | .core (.string s) => emit (.strEscaped s)
  | v => fun ops =>
    match t.fresh.parse (Reader.ofStr ['}']) with
    | .ok _ f => v.format f ops
    | .err _ e => .err ops e
    | .bad b => .bad b

theorem format_variant (t : FTy) (v : FVal) : (FVal.variant t v).format .variant = (do
    emit (.str ['v', 'a', 'r', 'i', 'a', 'n', 't', '('])
    variantContent t v
    emit (.char ')')) := by
  cases v with
  | core a => cases a <;> rfl
  | _ => rfl

theorem variantContent_parsed {t : FTy} {v : FVal} {r : Reader} {f : Fmtr} (h : t.fresh.parse (Reader.ofStr ['}']) = .ok r f)
    (hv : ∀ c, v ≠ .core (.char c)) (hv' : ∀ c, v ≠ .core (.string c)) : variantContent t v = v.format f := by
  funext ops
  cases v with
  | core a =>
    cases a with
    | char c => exact absurd rfl (hv c)
    | string c => exact absurd rfl (hv' c)
    | _ => unfold variantContent; simp only; rw [h]
  | _ => unfold variantContent; simp only; rw [h]

/-! ### Writing -/

theorem Emits.unique {m : Fmt Unit} {x y : Str} {k l : Nat} (h : Emits m x k) (h' : Emits m y l) : x = y := by
  obtain ⟨a, h1, h2, _⟩ := h []
  obtain ⟨b, h3, h4, _⟩ := h' []
  rw [h1] at h3
  obtain ⟨e, _⟩ := ok_inj h3
  simp only [List.nil_append] at e
  rw [← h2, ← h4, e]

theorem emits_str (s : Str) (k : Nat) : Emits (emit (.str s)) s k :=
  (emit_emits (.str s) trivial).mono (Nat.zero_le k)

theorem emits_char (c : Char) {k : Nat} (hk : 1 ≤ k) : Emits (emit (.char c)) [c] k :=
  (emit_emits (.char c) trivial).mono hk

theorem emits_nothing (k : Nat) : Emits (pure ()) [] k := fun ops => ⟨[], by simp [M.pure_run], rfl, by simp, by simp⟩

theorem intercalate_cons (sep t : Str) (ts : List Str) :
    sep.intercalate (t :: ts) = t ++ ts.flatMap (fun x => sep ++ x) := by
  induction ts generalizing t with
  | nil => simp [List.intercalate]
  | cons u us ih =>
    have := ih u
    simp only [List.intercalate, List.intersperse, List.flatten_cons, List.flatMap_cons] at *
    rw [this]
    simp

/-- The text of elements, with a separator before the first one unless `first`. -/
def joined (sep : Str) (first : Bool) (ts : List Str) : Str :=
  if first then sep.intercalate ts else ts.flatMap (fun x => sep ++ x)

theorem joined_cons (sep : Str) (first : Bool) (t : Str) (ts : List Str) :
    joined sep first (t :: ts) = (if first then [] else sep) ++ (t ++ joined sep false ts) := by
  cases first with
  | true => simp [joined, intercalate_cons]
  | false => simp [joined]

theorem joined_nil (sep : Str) (first : Bool) : joined sep first [] = [] := by
  cases first <;> simp [joined, List.intercalate]

theorem formatRange_emits {sep : Str} {f : Fmtr} {k : Nat} : ∀ (vs : List FVal) (texts : List Str) (first : Bool),
    texts.length = vs.length →
    (∀ (i : Nat) v t, vs[i]? = some v → texts[i]? = some t → Emits (v.format f) t k) →
    Emits (FVal.formatRange sep f first vs) (joined sep first texts) k := by
  intro vs
  induction vs with
  | nil =>
    intro texts first hl _
    cases texts with
    | nil => rw [joined_nil]; exact emits_nothing k
    | cons => simp at hl
  | cons v vs ih =>
    intro texts first hl h
    cases texts with
    | nil => simp at hl
    | cons t ts =>
      rw [joined_cons, FVal.formatRange]
      have hr : Emits (do v.format f; FVal.formatRange sep f false vs) (t ++ joined sep false ts) k := by
        refine Emits.seq (h 0 v t rfl rfl) (ih ts false (by simpa using hl) ?_)
        intro i v' t' hv ht
        exact h (i + 1) v' t' (by simpa using hv) (by simpa using ht)
      cases first with
      | true => exact hr
      | false => exact Emits.seq (emits_str sep k) hr

theorem formatTuple_emits {sep : Str} {k : Nat} : ∀ (vs : List FVal) (fs : List Fmtr) (texts : List Str) (first : Bool),
    texts.length = vs.length → fs.length = vs.length →
    (∀ (i : Nat) f v t, fs[i]? = some f → vs[i]? = some v → texts[i]? = some t → Emits (v.format f) t k) →
    Emits (FVal.formatTuple sep first vs fs) (joined sep first texts) k := by
  intro vs
  induction vs with
  | nil =>
    intro fs texts first hl hf _
    cases texts with
    | cons => simp at hl
    | nil =>
      cases fs with
      | cons => simp at hf
      | nil => rw [joined_nil, FVal.formatTuple]; exact emits_nothing k
  | cons v vs ih =>
    intro fs texts first hl hf h
    cases texts with
    | nil => simp at hl
    | cons t ts =>
      cases fs with
      | nil => simp at hf
      | cons f fs =>
        rw [joined_cons, FVal.formatTuple]
        have hr : Emits (do v.format f; FVal.formatTuple sep false vs fs) (t ++ joined sep false ts) k := by
          refine Emits.seq (h 0 f v t rfl rfl rfl) (ih fs ts false (by simpa using hl) (by simpa using hf) ?_)
          intro i f' v' t' hf' hv ht
          exact h (i + 1) f' v' t' (by simpa using hf') (by simpa using hv) (by simpa using ht)
        cases first with
        | true => exact hr
        | false => exact Emits.seq (emits_str sep k) hr

/-! ### Failing -/

theorem Fails.bind {m : Fmt Unit} {f : Unit → Fmt Unit} {k : Nat} (h : Fails m k) : Fails (m >>= f) k := by
  intro ops
  obtain ⟨new, e, h1, h2⟩ := h ops
  exact ⟨new, e, by rw [M.bind_err h1], h2⟩

theorem Emits.fails {m : Fmt Unit} {f : Unit → Fmt Unit} {text : Str} {k : Nat} (h : Emits m text k)
    (h' : Fails (f ()) k) : Fails (m >>= f) k := by
  intro ops
  obtain ⟨new, h1, _, h3⟩ := h ops
  obtain ⟨new', e, h4, h5, h6⟩ := h' (ops ++ new)
  refine ⟨new ++ new', e, by rw [M.bind_ok h1, h4, List.append_assoc], h5, ?_⟩
  intro op ho
  rcases List.mem_append.1 ho with ho | ho
  · exact ⟨h3.1 op ho, h3.2 op ho⟩
  · exact h6 op ho

theorem formatRange_fails {sep : Str} {f : Fmtr} {k : Nat} : ∀ (vs : List FVal) (first : Bool) (i : Nat) (v : FVal),
    vs[i]? = some v → Fails (v.format f) k →
    (∀ j < i, ∀ w, vs[j]? = some w → ∃ t, Emits (w.format f) t k) → Fails (FVal.formatRange sep f first vs) k := by
  intro vs
  induction vs with
  | nil => intro first i v h; simp at h
  | cons w vs ih =>
    intro first i v hv hf hj
    rw [FVal.formatRange]
    have hr : Fails (do w.format f; FVal.formatRange sep f false vs) k := by
      cases i with
      | zero =>
        simp only [List.getElem?_cons_zero, Option.some.injEq] at hv
        rw [hv]; exact hf.bind
      | succ i =>
        obtain ⟨t, ht⟩ := hj 0 (by omega) w rfl
        refine ht.fails (ih false i v (by simpa using hv) hf ?_)
        intro j hji u hu
        exact hj (j + 1) (by omega) u (by simpa using hu)
    cases first with
    | true => exact hr
    | false => exact (emits_str sep k).fails hr

theorem formatTuple_fails {sep : Str} {k : Nat} : ∀ (vs : List FVal) (fs : List Fmtr) (first : Bool) (i : Nat) (v : FVal)
    (f : Fmtr), vs[i]? = some v → fs[i]? = some f → Fails (v.format f) k →
    (∀ j < i, ∀ w g, vs[j]? = some w → fs[j]? = some g → ∃ t, Emits (w.format g) t k) →
    Fails (FVal.formatTuple sep first vs fs) k := by
  intro vs
  induction vs with
  | nil => intro fs first i v f h; simp at h
  | cons w vs ih =>
    intro fs first i v f hv hg hf hj
    cases fs with
    | nil => simp at hg
    | cons g fs =>
      rw [FVal.formatTuple]
      have hr : Fails (do w.format g; FVal.formatTuple sep false vs fs) k := by
        cases i with
        | zero =>
          simp only [List.getElem?_cons_zero, Option.some.injEq] at hv hg
          rw [hv, hg]; exact hf.bind
        | succ i =>
          obtain ⟨t, ht⟩ := hj 0 (by omega) w g rfl rfl
          refine ht.fails (ih fs false i v f (by simpa using hv) (by simpa using hg) hf ?_)
          intro j hji u g' hu hg'
          exact hj (j + 1) (by omega) u g' (by simpa using hu) (by simpa using hg')
      cases first with
      | true => exact hr
      | false => exact (emits_str sep k).fails hr

/-- Either everything has a text, or there is a first one that fails. -/
theorem first_failing {P : Nat → Str → Prop} {Q : Nat → Prop} : ∀ (n : Nat), (∀ i < n, (∃ t, P i t) ∨ Q i) →
    (∃ ts : List Str, ts.length = n ∧ ∀ i t, ts[i]? = some t → P i t) ∨ ∃ i < n, Q i ∧ ∀ j < i, ∃ t, P j t := by
  intro n
  induction n with
  | zero => intro _; exact Or.inl ⟨[], rfl, by simp⟩
  | succ n ih =>
    intro h
    rcases ih (fun i hi => h i (by omega)) with ⟨ts, h1, h2⟩ | ⟨i, h1, h2, h3⟩
    · rcases h n (by omega) with ⟨t, ht⟩ | hq
      · left
        refine ⟨ts ++ [t], by simp [h1], ?_⟩
        intro i u hu
        rcases Nat.lt_trichotomy i n with hi | hi | hi
        · rw [List.getElem?_append_left (by omega)] at hu
          exact h2 i u hu
        · subst hi
          rw [List.getElem?_append_right (by omega), h1] at hu
          simp at hu
          rw [← hu]; exact ht
        · rw [List.getElem?_eq_none (by simp; omega)] at hu
          cases hu
      · right
        refine ⟨n, by omega, hq, ?_⟩
        intro j hj
        have : j < ts.length := by omega
        exact ⟨ts[j], h2 j _ (by simp [this])⟩
    · exact Or.inr ⟨i, by omega, h2, h3⟩

/-! ### Reading the beginning of a specification -/

theorem rangeSpec_inj {n n' : Bool} {e e' : Option Str} (h : rangeSpec n e = rangeSpec n' e') : n = n' ∧ e = e' := by
  unfold rangeSpec at h
  cases n <;> cases n' <;> cases e <;> cases e' <;> simp at h ⊢ <;> exact h

theorem matchBrace {r : Reader} {tail : Str} (h : r.At ('}' :: tail)) : readIfMatchChar '}' r = .ok (r.adv 1) '}' := by
  unfold readIfMatchChar
  have hp := h.pos
  simp only [List.length_cons] at hp
  rw [if_pos (by omega)]
  have : r.src[r.pos]? = some '}' := by
    have hr := h.2
    unfold Reader.rest at hr
    have := congrArg List.head? hr
    rw [List.head?_drop] at this
    simpa using this
  rw [this]
  simp [Reader.adv]

theorem validateHead {r : Reader} {n : Bool} {elem : Option Str} {tail : Str}
    (h : r.At (rangeSpec n elem ++ '}' :: tail)) :
    validateRangeHead r = .ok (r.adv ((if n then 1 else 0) + 1)) elem.isSome := by
  unfold validateRangeHead
  cases n with
  | true =>
    cases elem with
    | none =>
      have h1 : r.At ('n' :: '}' :: tail) := h
      rw [M.bind_ok h1.readChar, if_pos rfl, M.bind_ok h1.adv1.readChar, if_pos rfl, adv_adv]
      rfl
    | some e =>
      have h1 : r.At ('n' :: ':' :: (e ++ '}' :: tail)) := by simpa [rangeSpec] using h
      rw [M.bind_ok h1.readChar, if_pos rfl, M.bind_ok h1.adv1.readChar, if_neg (by decide), if_pos rfl, adv_adv]
      rfl
  | false =>
    cases elem with
    | none =>
      have h1 : r.At ('}' :: tail) := h
      rw [M.bind_ok h1.readChar, if_neg (by decide), M.bind_ok (M.pure_run _ _), if_pos rfl]
      rfl
    | some e =>
      have h1 : r.At (':' :: (e ++ '}' :: tail)) := by simpa [rangeSpec] using h
      rw [M.bind_ok h1.readChar, if_neg (by decide), M.bind_ok (M.pure_run _ _), if_neg (by decide), if_pos rfl]
      rfl

theorem parseHead {r : Reader} {n : Bool} {elem : Option Str} {tail : Str}
    (h : r.At (rangeSpec n elem ++ '}' :: tail)) :
    parseRangeHead r = .ok (r.adv ((if n then 1 else 0) + if elem.isSome then 1 else 0)) (n, elem.isSome) := by
  unfold parseRangeHead
  cases n with
  | true =>
    cases elem with
    | none =>
      have h1 : r.At ('n' :: '}' :: tail) := h
      rw [M.bind_ok (assume_ok h1.peek)]
      have : (if decide True = true then (do M.modify (·.pop 1); assumeValue Reader.peek) else pure 'n' :
          M Reader Char) r = .ok (r.adv 1) '}' := by
        rw [if_pos (by decide), M.bind_ok (M.modify_run _ _), h1.pop1, assume_ok h1.adv1.peek]
      simp only
      rw [M.bind_ok this, if_pos rfl]
      rfl
    | some e =>
      have h1 : r.At ('n' :: ':' :: (e ++ '}' :: tail)) := by simpa [rangeSpec] using h
      rw [M.bind_ok (assume_ok h1.peek)]
      have : (if decide True = true then (do M.modify (·.pop 1); assumeValue Reader.peek) else pure 'n' :
          M Reader Char) r = .ok (r.adv 1) ':' := by
        rw [if_pos (by decide), M.bind_ok (M.modify_run _ _), h1.pop1, assume_ok h1.adv1.peek]
      simp only
      rw [M.bind_ok this, if_neg (by decide), M.bind_ok (M.modify_run _ _), h1.adv1.pop1, adv_adv]
      rfl
  | false =>
    cases elem with
    | none =>
      have h1 : r.At ('}' :: tail) := h
      rw [M.bind_ok (assume_ok h1.peek)]
      rw [if_neg (by decide), M.bind_ok (M.pure_run _ _), if_pos rfl]
      rfl
    | some e =>
      have h1 : r.At (':' :: (e ++ '}' :: tail)) := by simpa [rangeSpec] using h
      rw [M.bind_ok (assume_ok h1.peek)]
      rw [if_neg (by decide), M.bind_ok (M.pure_run _ _), if_neg (by decide), M.bind_ok (M.modify_run _ _), h1.pop1]
      rfl

/-- Behind the beginning. -/
theorem head_at {r : Reader} {n : Bool} {elem : Option Str} {tail : Str}
    (h : r.At (rangeSpec n elem ++ '}' :: tail)) :
    (r.adv ((if n then 1 else 0) + if elem.isSome then 1 else 0)).At (elem.getD [] ++ '}' :: tail) := by
  cases n with
  | true =>
    cases elem with
    | none =>
      have h1 : r.At ('n' :: '}' :: tail) := h
      exact h1.adv1
    | some e =>
      have h1 : r.At (['n', ':'] ++ (e ++ '}' :: tail)) := by simpa [rangeSpec] using h
      exact h1.adv
  | false =>
    cases elem with
    | none => exact h
    | some e =>
      have h1 : r.At (':' :: (e ++ '}' :: tail)) := by simpa [rangeSpec] using h
      exact h1.adv1

theorem rangeSpec_length (n : Bool) (elem : Option Str) :
    (rangeSpec n elem).length = (if n then 1 else 0) + (if elem.isSome then 1 else 0) + (elem.getD []).length := by
  cases n <;> cases elem <;> simp [rangeSpec] <;> omega

/-! ### Elements -/

theorem validateEach_ok {ts : List FTy} {r r' : Reader} (h : ∀ t ∈ ts, t.validate r = .ok r' ()) {pos : Nat}
    (hp : pos = 0 ∨ pos = r'.pos) : FTy.validateEach r ts pos = .ok () (if ts = [] then pos else r'.pos) := by
  induction ts generalizing pos with
  | nil => rw [FTy.validateEach]; rfl
  | cons t ts ih =>
    rw [FTy.validateEach, h t (by simp)]
    have hrec : FTy.validateEach r ts r'.pos = .ok () r'.pos := by
      rw [ih (fun t ht => h t (by simp [ht])) (Or.inr rfl)]
      simp
    simp only [reduceCtorEq, if_false]
    split
    · exact hrec
    · split
      · omega
      · rcases hp with hp | hp
        · contradiction
        · rw [hp]; exact hrec

theorem parseEach_ok {ts : List FTy} {A : Reader → Prop} {n : Nat} {b : Bool} {P : FTy → Fmtr → Prop}
    (h : ∀ t ∈ ts, ∃ f, (∀ r, A r → t.fresh.parseWith (some b) r = .ok (r.adv n) f) ∧ P t f) :
    ∃ fs : List Fmtr, fs.length = ts.length ∧
      (∀ (i : Nat) t f, ts[i]? = some t → fs[i]? = some f → P t f) ∧
      ∀ r pos, A r → Fmtr.parseEach b r (FTy.freshEach ts) pos = .ok () (fs, if ts = [] then pos else r.pos + n) := by
  induction ts with
  | nil => exact ⟨[], rfl, by simp, fun r pos _ => by simp [FTy.freshEach, Fmtr.parseEach]⟩
  | cons t ts ih =>
    obtain ⟨fs, h1, h2, h3⟩ := ih (fun t ht => h t (by simp [ht]))
    obtain ⟨f, h4, h5⟩ := h t (by simp)
    refine ⟨f :: fs, by simp [h1], ?_, ?_⟩
    · intro i t' f' ht hf
      cases i with
      | zero =>
        simp only [List.getElem?_cons_zero, Option.some.injEq] at ht hf
        rw [← ht, ← hf]; exact h5
      | succ i => exact h2 i t' f' (by simpa using ht) (by simpa using hf)
    · intro r pos hA
      rw [FTy.freshEach, Fmtr.parseEach, h4 r hA]
      simp only
      rw [h3 r _ hA]
      simp only [reduceCtorEq, if_false]
      split <;> rfl

theorem freshEach_isEmpty (ts : List FTy) : (FTy.freshEach ts).isEmpty = ts.isEmpty := by
  cases ts <;> simp [FTy.freshEach]

/-! ### The specification of quoted characters and strings -/

theorem quotedSpec_ok (t : CoreTy) : (quotedSpec t).WellFormed ∧ (quotedSpec t).Fits ∧ CoreTy.Allows t (quotedSpec t) := by
  have hq : SpecText.WellFormed { type := some '?' } ∧ SpecText.Fits { type := some '?' } :=
    ⟨⟨by simp, by simp, by simp, by simp, by simp, by simp, by simp⟩, by decide, by decide⟩
  cases t with
  | char => exact ⟨hq.1, hq.2, (allows_iff .char hq.1).1 (by decide)⟩
  | string => exact ⟨hq.1, hq.2, (allows_iff .string hq.1).1 (by decide)⟩
  | int t => exact ⟨noSpec_ok.1, noSpec_ok.2, (allows_iff (.int t) noSpec_ok.1).1 (by
      show (checkIntegralSpecs (SpecText.meaning {}) && (t.signed || checkUnsignedSpecs (SpecText.meaning {}))) = true
      cases t.signed <;> decide)⟩
  | bool => exact ⟨noSpec_ok.1, noSpec_ok.2, (allows_iff _ noSpec_ok.1).1 (by decide)⟩
  | double => exact ⟨noSpec_ok.1, noSpec_ok.2, (allows_iff _ noSpec_ok.1).1 (by decide)⟩
  | pointer => exact ⟨noSpec_ok.1, noSpec_ok.2, (allows_iff _ noSpec_ok.1).1 (by decide)⟩

theorem noSpec_allows (t : CoreTy) : CoreTy.Allows t {} := by
  cases t with
  | int t => exact (allows_iff (.int t) noSpec_ok.1).1 (by
      show (checkIntegralSpecs (SpecText.meaning {}) && (t.signed || checkUnsignedSpecs (SpecText.meaning {}))) = true
      cases t.signed <;> decide)
  | _ => exact (allows_iff _ noSpec_ok.1).1 (by decide)

theorem quotedSpec_meaning (t : CoreTy) : (quotedSpec t).meaning =
    if t = .char ∨ t = .string then { type := '?' } else {} := by
  cases t <;> rfl

theorem meaning_unique {a b : SpecText} (ha : a.WellFormed) (fa : a.Fits) (hb : b.WellFormed) (fb : b.Fits)
    (h : a.text = b.text) : a.meaning = b.meaning := by
  have h1 := (C28_grammar_is_accepted a ha fa (Reader.ofStr (a.text ++ ['}'])) (at_ofStr _).1 [] (at_ofStr _).2).2
  have h2 := (C28_grammar_is_accepted b hb fb (Reader.ofStr (a.text ++ ['}'])) (at_ofStr _).1 []
    (by rw [h]; exact (at_ofStr _).2)).2
  rw [h1] at h2
  exact (ok_inj h2).2

theorem renders_unquoted {R : CoreArg → SpecText → Str → Prop} {t : FTy} {v : FVal} {q : Bool} {s text : Str}
    (h : Renders R t v q s text) (hs : q = true → s = []) (hv : ∀ c, v ≠ .core (.char c)) (hv' : ∀ c, v ≠ .core (.string c)) :
    Renders R t v false s text := by
  cases h with
  | core wf fits allows h => exact .core wf fits allows h
  | @quoted a text h =>
    have e : quotedSpec a.ty = {} := by
      cases a with
      | char c => exact absurd rfl (hv c)
      | string c => exact absurd rfl (hv' c)
      | _ => rfl
    rw [e] at h
    exact .core (sp := {}) noSpec_ok.1 noSpec_ok.2 (noSpec_allows _) h
  | range number each => exact .range number each
  | tuple number each => exact .tuple number each
  | entry number each => exact .entry number each
  | none => exact .none
  | some content => exact .some content
  | monostate => exact .monostate
  | variant mem content => exact .variant mem content
  | valueless => exact .valueless

/-! ### Reading and writing -/

/-- What is needed to know about the core types. -/
def CoreEmits (R : CoreArg → SpecText → Str → Prop) (k : Nat) : Prop :=
  ∀ (a : CoreArg) (sp : SpecText) (text : Str), sp.WellFormed → sp.Fits → CoreTy.Allows a.ty sp → ValidArg a →
    R a sp text → Emits (a.write sp.meaning) text k

/-- Every core value is rendered, except with the presentation type `O`. -/
def CoreTotal (R : CoreArg → SpecText → Str → Prop) (k : Nat) : Prop :=
  ∀ (a : CoreArg) (sp : SpecText), sp.WellFormed → sp.Fits → CoreTy.Allows a.ty sp → ValidArg a →
    (∃ text, R a sp text) ∨ sp.meaning.type = 'O' ∧ Fails (a.write sp.meaning) k

/-- Where a tuple is involved, nothing may follow. -/
def Behind (ty : FTy) (tail : Str) : Prop := NoTuple ty ∨ tail = []

/-- Validation takes the specification. -/
def Validates (ty : FTy) (s : Str) : Prop :=
  ∀ (r : Reader) (tail : Str), Behind ty tail → r.At (s ++ '}' :: tail) → ty.validate r = .ok (r.adv (s.length + 1)) ()

/-- Parsing takes the specification, and the formatter renders values. -/
def ParsesAs (R : CoreArg → SpecText → Str → Prop) (k : Nat) (ty : FTy) (s : Str) (d : Option Bool) (f : Fmtr) : Prop :=
  (∀ (r : Reader) (tail : Str), Behind ty tail → r.At (s ++ '}' :: tail) →
    ty.fresh.parseWith d r = .ok (r.adv (s.length + 1)) f) ∧
  (∀ v text, HasType v ty → Renders R ty v (d.getD false) s text → Emits (v.format f) text k) ∧
  (CoreTotal R k → ∀ v, HasType v ty →
    (∃ text, Renders R ty v (d.getD false) s text) ∨ 'O' ∈ s ∧ Fails (v.format f) k)

theorem hasType_core {v : FVal} {ty : FTy} (h : HasType v ty) :
    ∀ t, ty = .core t → ∃ a, v = .core a ∧ a.ty = t ∧ ValidArg a := by
  cases h with
  | @core a valid => intro t e; cases e; exact ⟨a, rfl, rfl, valid⟩
  | _ => intro t e; cases e

theorem renders_core {R : CoreArg → SpecText → Str → Prop} {ty : FTy} {v : FVal} {q : Bool} {s text : Str}
    (h : Renders R ty v q s text) : ∀ a, v = .core a →
      if q then s = [] ∧ R a (quotedSpec a.ty) text
      else ∃ sp : SpecText, s = sp.text ∧ sp.WellFormed ∧ sp.Fits ∧ CoreTy.Allows a.ty sp ∧ R a sp text := by
  cases h with
  | @core a sp text wf fits allows h => intro a e; cases e; exact ⟨sp, rfl, wf, fits, allows, h⟩
  | @quoted a text h => intro a e; cases e; exact ⟨rfl, h⟩
  | _ => intro a e; cases e

theorem core_validates {t : CoreTy} {sp : SpecText} (wf : sp.WellFormed) (fits : sp.Fits) (allows : CoreTy.Allows t sp) :
    Validates (.core t) sp.text := by
  intro r tail _ h
  have h1 := C28_type_check t sp wf fits r h.1 tail h.2
  rw [if_pos ((allows_iff t wf).2 allows)] at h1
  rw [FTy.validate]
  exact h1

theorem core_parses {R : CoreArg → SpecText → Str → Prop} {k : Nat} (hR : CoreEmits R k) {t : CoreTy} {sp : SpecText}
    (wf : sp.WellFormed) (fits : sp.Fits) (allows : CoreTy.Allows t sp) (d : Option Bool)
    (hd : d = some true → sp.text = []) :
    ∃ f, ParsesAs R k (.core t) sp.text d f := by
  by_cases hq : d = some true
  · subst hq
    refine ⟨.core t (quotedSpec t).meaning, ?_, ?_, ?_⟩
    · intro r tail _ h
      rw [hd rfl] at h ⊢
      have h' : r.At ('}' :: tail) := h
      have hp : ∀ s : Specs, parseFormatSpecs s r = .ok (r.adv 1) s := by
        intro s
        unfold parseFormatSpecs
        rw [M.bind_ok (assume_ok h'.readChar), if_pos rfl]
        rfl
      rw [FTy.fresh, Fmtr.parseWith, M.bind_ok (hp _), quotedSpec_meaning]
      rfl
    · intro v text ht hr
      obtain ⟨a, rfl, rfl, valid⟩ := hasType_core ht t rfl
      obtain ⟨h1, h2, h3⟩ := quotedSpec_ok a.ty
      rw [format_core]
      exact hR a _ _ h1 h2 h3 valid (renders_core hr a rfl).2
    · intro hT v ht
      obtain ⟨a, rfl, rfl, valid⟩ := hasType_core ht t rfl
      obtain ⟨h1, h2, h3⟩ := quotedSpec_ok a.ty
      rw [hd rfl]
      rcases hT a _ h1 h2 h3 valid with ⟨text, h⟩ | ⟨h, _⟩
      · exact Or.inl ⟨text, .quoted h⟩
      · exfalso
        rw [quotedSpec_meaning] at h
        split at h <;> exact absurd h (by decide)
  · have hd' : d.getD false = false := by
      cases d with
      | none => rfl
      | some b =>
        cases b with
        | true => exact absurd rfl hq
        | false => rfl
    refine ⟨.core t sp.meaning, ?_, ?_, ?_⟩
    · intro r tail _ h
      have hp := (C28_grammar_is_accepted sp wf fits r h.1 tail h.2).2
      rw [FTy.fresh]
      cases d with
      | none =>
        rw [Fmtr.parseWith]
        exact (M.bind_ok hp)
      | some b =>
        cases b with
        | true => exact absurd rfl hq
        | false =>
          rw [Fmtr.parseWith]
          simp only [Bool.false_eq_true, if_false, ite_self]
          exact (M.bind_ok hp)
    · intro v text ht hr
      rw [hd'] at hr
      obtain ⟨a, rfl, rfl, valid⟩ := hasType_core ht t rfl
      obtain ⟨sp', hs, wf', fits', allows, h⟩ := renders_core hr a rfl
      rw [format_core, meaning_unique wf fits wf' fits' hs]
      exact hR a _ _ wf' fits' allows valid h
    · intro hT v ht
      obtain ⟨a, rfl, rfl, valid⟩ := hasType_core ht t rfl
      rw [hd']
      rcases hT a _ wf fits allows valid with ⟨text, h⟩ | ⟨h, h'⟩
      · exact Or.inl ⟨text, .core wf fits allows h⟩
      · right
        refine ⟨?_, h'⟩
        cases hty : sp.type with
        | none => simp [SpecText.meaning, hty] at h
        | some c =>
          simp only [SpecText.meaning, hty, Option.getD_some] at h
          simp [SpecText.text, hty, h]

theorem rangeSpec_mem {n : Bool} {elem : Option Str} {c : Char} (h : c ∈ elem.getD []) : c ∈ rangeSpec n elem := by
  cases elem with
  | none => simp at h
  | some e => simp only [Option.getD_some] at h; simp [rangeSpec, h]

theorem text_nil {sp : SpecText} (h : sp.text = []) : sp = {} := by
  obtain ⟨fill, align, sign, alt, zero, width, prec, type⟩ := sp
  simp only [SpecText.text, List.append_eq_nil_iff, Option.toList_eq_nil_iff] at h
  obtain ⟨⟨⟨⟨⟨⟨⟨rfl, rfl⟩, rfl⟩, h4⟩, h5⟩, rfl⟩, h7⟩, rfl⟩ := h
  cases alt <;> cases zero <;> cases prec <;> simp_all

theorem renders_quoted {R : CoreArg → SpecText → Str → Prop} {t : FTy} {v : FVal} {q : Bool} {s text : Str}
    (h : Renders R t v q s text) (hs : s = []) (hv : ∀ c, v ≠ .core (.char c)) (hv' : ∀ c, v ≠ .core (.string c)) :
    Renders R t v true s text := by
  cases h with
  | @core a sp text wf fits allows h =>
    have e : quotedSpec a.ty = {} := by
      cases a with
      | char c => exact absurd rfl (hv c)
      | string c => exact absurd rfl (hv' c)
      | _ => rfl
    rw [hs]
    rw [text_nil hs, ← e] at h
    exact .quoted h
  | quoted h => exact .quoted h
  | range number each => exact .range number each
  | tuple number each => exact .tuple number each
  | entry number each => exact .entry number each
  | none => exact .none
  | some content => exact .some content
  | monostate => exact .monostate
  | variant mem content => exact .variant mem content
  | valueless => exact .valueless

theorem renders_range {R : CoreArg → SpecText → Str → Prop} {ty : FTy} {v : FVal} {q : Bool} {s text : Str}
    (h : Renders R ty v q s text) : ∀ curly t, ty = .range curly t → ∃ vs texts n elem, v = .range vs ∧
      s = rangeSpec n elem ∧ texts.length = vs.length ∧
      (∀ (i : Nat) (v : FVal) (text : Str), vs[i]? = some v → texts[i]? = some text →
        Renders R t v elem.isNone (elem.getD []) text) ∧
      text = bracketed n (if curly then ['{'] else ['[']) (if curly then ['}'] else [']'])
        ([',', ' '].intercalate texts) := by
  cases h with
  | @range curly t vs texts q n elem number each =>
    intro curly' t' e; cases e
    exact ⟨vs, texts, n, elem, rfl, rfl, number, each, rfl⟩
  | _ => intro curly t e; cases e

theorem renders_tuple {R : CoreArg → SpecText → Str → Prop} {ty : FTy} {v : FVal} {q : Bool} {s text : Str}
    (h : Renders R ty v q s text) : ∀ entry ts, ty = .tuple entry ts → ∃ vs texts n elem, v = .tuple vs ∧
      s = rangeSpec n elem ∧ texts.length = vs.length ∧
      (∀ (i : Nat) (t : FTy) (v : FVal) (text : Str), ts[i]? = some t → vs[i]? = some v → texts[i]? = some text →
        Renders R t v elem.isNone (elem.getD []) text) ∧
      text = if entry then [':', ' '].intercalate texts
        else bracketed n ['('] [')'] ([',', ' '].intercalate texts) := by
  cases h with
  | @tuple ts vs texts q n elem number each =>
    intro curly' t' e; cases e
    exact ⟨vs, texts, n, elem, rfl, rfl, number, each, rfl⟩
  | @entry ts vs texts q n elem number each =>
    intro curly' t' e; cases e
    exact ⟨vs, texts, n, elem, rfl, rfl, number, each, rfl⟩
  | _ => intro curly t e; cases e

theorem bracketed_emits {n : Bool} {o c text : Str} {m : Fmt Unit} {k : Nat} (h : Emits m text k) :
    Emits (do emit (.str (if n then [] else o)); m; emit (.str (if n then [] else c))) (bracketed n o c text) k := by
  have e : bracketed n o c text = (if n then [] else o) ++ (text ++ if n then [] else c) := by
    cases n <;> simp [bracketed]
  rw [e]
  exact Emits.seq (emits_str _ k) (Emits.seq h (emits_str _ k))

/-- The reader of a tuple is moved to the end. -/
theorem pop_end {r : Reader} {e : Str} (h : r.At (e ++ ['}'])) : r.pop (r.pos + (e.length + 1)) = r.adv (e.length + 1) := by
  have hp := h.pos
  simp only [List.length_append, List.length_cons, List.length_nil] at hp
  unfold Reader.pop Reader.adv
  split
  · have : r.pos = 0 := by omega
    simp [this]
  · simp only [Reader.mk.injEq, true_and]; omega

theorem surround_zero (al : Align) (fill : Char) (text : Str) : surround al fill 0 text = text := by
  unfold surround
  cases al <;> simp

theorem unnamed_char {R : CoreArg → SpecText → Str → Prop} {k : Nat} (hR : CoreEmits R k) {t : FTy} {v : FVal} {text : Str}
    (hty : HasType v t) (h : Renders R t v true [] text) (c : Char) (hv : v = .core (.char c)) :
    Emits (emit (.charEscaped c)) text k := by
  subst hv
  obtain ⟨_, e, _, valid⟩ : ∃ a, FVal.core (.char c) = .core a ∧ FTy.core a.ty = t ∧ ValidArg a := by
    cases hty with
    | core valid => exact ⟨_, rfl, rfl, valid⟩
  cases e
  have hb : c.toNat < 256 := valid
  obtain ⟨h1, h2, h3⟩ := quotedSpec_ok .char
  have he := hR (.char c) _ _ h1 h2 h3 valid (renders_core h _ rfl).2
  have he' := writeArgChar_debug_emits _ (meaning_ok h2) c hb rfl
  have hw : (WOp.charEscaped c).text = quoted '\'' [c] := by
    simp [WOp.text, quoted, escAll_eq [c] (by simpa using hb)]
  have e : text = quoted '\'' [c] := (he.unique he').trans (surround_zero _ _ _)
  rw [e, ← hw]
  exact (emit_emits (.charEscaped c) trivial).mono (Nat.zero_le k)

theorem unnamed_string {R : CoreArg → SpecText → Str → Prop} {k : Nat} (hR : CoreEmits R k) {t : FTy} {v : FVal} {text : Str}
    (hty : HasType v t) (h : Renders R t v true [] text) (c : Str) (hv : v = .core (.string c)) :
    Emits (emit (.strEscaped c)) text k := by
  subst hv
  obtain ⟨_, e, _, valid⟩ : ∃ a, FVal.core (.string c) = .core a ∧ FTy.core a.ty = t ∧ ValidArg a := by
    cases hty with
    | core valid => exact ⟨_, rfl, rfl, valid⟩
  cases e
  have hb : (∀ x ∈ c, x.toNat < 256) ∧ (quoted '"' c).length < 2 ^ 31 := valid
  obtain ⟨h1, h2, h3⟩ := quotedSpec_ok .string
  have he := hR (.string c) _ _ h1 h2 h3 valid (renders_core h _ rfl).2
  have hlen : c.length < 2 ^ 31 := by
    have := length_escape_ge c
    have h2 := hb.2
    simp [quoted] at h2
    omega
  have he' := writeArgStr_emits _ (meaning_ok h2) c hb.1 hb.2 hlen
  have hw : (WOp.strEscaped c).text = quoted '"' c := by
    simp [WOp.text, quoted, escAll_eq c hb.1]
  have e : text = quoted '"' c := (he.unique he').trans (by
    unfold strText
    rw [if_pos (show (quotedSpec CoreTy.string).meaning.type = '?' from rfl)]
    unfold padded fillCount
    exact (congrArg (fun n => surround _ _ n _) (Nat.zero_sub _)).trans (surround_zero _ _ _))
  rw [e, ← hw]
  exact (emit_emits (.strEscaped c) trivial).mono (Nat.zero_le k)

theorem onCopies_ok {α : Type} {f : Reader → Run Unit α} {r : Reader} {a : α} (h : f r = .ok () a) :
    onCopies f r = .ok r a := by
  unfold onCopies
  rw [h]

/-- Reading and writing work. -/
theorem works {R : CoreArg → SpecText → Str → Prop} {k : Nat} (hR : CoreEmits R k) (hk : 1 ≤ k) {ty : FTy} {s : Str}
    (ht : Spec.Takes ty s) : Validates ty s ∧ ∀ d : Option Bool, (d = some true → s = []) → ∃ f, ParsesAs R k ty s d f := by
  induction ht with
  | core wf fits allows => exact ⟨core_validates wf fits allows, fun d hd => core_parses hR wf fits allows d hd⟩
  | @range curly t' n elem each ih =>
    obtain ⟨ihv, ihp⟩ := ih
    have hb : ∀ {tail}, Behind (.range curly t') tail → Behind t' tail := fun h => h
    refine ⟨?_, ?_⟩
    · intro r tail hbt hat
      rw [FTy.validate, M.bind_ok (validateHead hat)]
      cases elem with
      | none =>
        rw [if_neg (by simp), M.pure_run, rangeSpec_length]
        simp
      | some e =>
        rw [if_pos (by simp)]
        have h := ihv _ tail (hb hbt) (head_at hat)
        simp only [Option.isSome_some, if_true] at h
        rw [h, adv_adv, rangeSpec_length]
        simp [Nat.add_assoc]
    · intro d hd
      obtain ⟨f, hf1, hf2, hf3⟩ := ihp (if elem.isSome then none else some true) (by cases elem <;> simp)
      refine ⟨.range (if n then [] else if curly then ['{'] else ['[']) (if n then [] else if curly then ['}'] else [']'])
        [',', ' '] f, ?_, ?_, ?_⟩
      · intro r tail hbt hat
        rw [FTy.fresh, Fmtr.parseWith, M.bind_ok (parseHead hat)]
        simp only
        rw [M.bind_ok (hf1 _ tail (hb hbt) (head_at hat)), M.pure_run, adv_adv, rangeSpec_length]
        simp only [Nat.add_assoc]
      · intro v text hty hren
        obtain ⟨vs, texts, n', elem', rfl, hs, hl, he, rfl⟩ := renders_range hren _ _ rfl
        obtain ⟨rfl, rfl⟩ := rangeSpec_inj hs
        rw [format_range]
        refine bracketed_emits ?_
        refine formatRange_emits vs texts true hl ?_
        intro i v t hv ht
        have htv : HasType v t' := by
          cases hty with
          | range each => exact each v (List.mem_of_getElem? hv)
        refine hf2 v t htv ?_
        have := he i v t hv ht
        cases elem <;> simpa using this
      · intro hT v hty
        have eq : (if elem.isSome then none else some true : Option Bool).getD false = elem.isNone := by
          cases elem <;> rfl
        rw [eq] at hf2 hf3
        cases hty with
        | @range _ _ vs each =>
          rcases first_failing (P := fun i t => ∀ v, vs[i]? = some v → Renders R t' v elem.isNone (elem.getD []) t)
            (Q := fun i => ∃ v, vs[i]? = some v ∧ 'O' ∈ elem.getD [] ∧ Fails (v.format f) k) vs.length (fun i hi => by
              rcases hf3 hT vs[i] (each _ (List.getElem_mem hi)) with ⟨t, ht⟩ | h
              · left
                refine ⟨t, fun v hv => ?_⟩
                rw [List.getElem?_eq_getElem hi] at hv
                cases hv; exact ht
              · exact Or.inr ⟨vs[i], List.getElem?_eq_getElem hi, h⟩) with ⟨ts, h1, h2⟩ | ⟨i, hi, ⟨v, hv, hO, hf⟩, hj⟩
          · exact Or.inl ⟨_, .range h1 (fun i v t hv ht => h2 i t ht v hv)⟩
          · right
            refine ⟨rangeSpec_mem hO, ?_⟩
            rw [format_range]
            refine (emits_str _ k).fails (Fails.bind (formatRange_fails vs true i v hv hf ?_))
            intro j hji w hw
            obtain ⟨t, ht⟩ := hj j hji
            exact ⟨t, hf2 w t (each w (List.mem_of_getElem? hw)) (ht w hw)⟩
  | @tuple entry ts n elem each nonempty ih =>
    have hb : ∀ {tail}, Behind (.tuple entry ts) tail → tail = [] := fun h => h.elim (fun h => h.elim) id
    refine ⟨?_, ?_⟩
    · intro r tail hbt hat
      obtain rfl := hb hbt
      rw [FTy.validate, M.bind_ok (validateHead hat)]
      cases elem with
      | none =>
        rw [if_neg (by simp), M.pure_run, rangeSpec_length]
        simp
      | some e =>
        have hne : ts ≠ [] := nonempty (by simp)
        have hh := head_at hat
        simp only [Option.isSome_some, if_true, Option.getD_some] at hh
        have hpos : (r.adv ((if n then 1 else 0) + 1)).pos + (e.length + 1) ≠ 0 := by omega
        have hval := validateEach_ok (r := r.adv ((if n then 1 else 0) + 1)) (r' := (r.adv ((if n then 1 else 0) + 1)).adv (e.length + 1))
          (fun t ht => (ih t ht).1 _ [] (Or.inr rfl) hh) (Or.inl rfl)
        rw [if_neg hne] at hval
        rw [if_pos (by simp), if_neg (by simpa using hne), M.bind_ok (onCopies_ok hval), M.modify_run]
        rw [show ((r.adv ((if n then 1 else 0) + 1)).adv (e.length + 1)).pos =
          (r.adv ((if n then 1 else 0) + 1)).pos + (e.length + 1) from rfl, if_pos hpos, pop_end hh, adv_adv, rangeSpec_length]
        simp [Nat.add_assoc]
    · intro d hd
      obtain ⟨fs, hf1, hf2, hf3⟩ := parseEach_ok (ts := ts) (A := fun r => r.At (elem.getD [] ++ ['}']))
        (n := (elem.getD []).length + 1) (b := elem.isNone)
        (P := fun t f => (∀ v text, HasType v t → Renders R t v elem.isNone (elem.getD []) text → Emits (v.format f) text k) ∧
          (CoreTotal R k → ∀ v, HasType v t →
            (∃ text, Renders R t v elem.isNone (elem.getD []) text) ∨ 'O' ∈ elem.getD [] ∧ Fails (v.format f) k))
        (fun t ht => by
          obtain ⟨f, h1, h2⟩ := (ih t ht).2 (some elem.isNone) (by cases elem <;> simp)
          exact ⟨f, fun r hr => h1 r [] (Or.inr rfl) hr, h2⟩)
      refine ⟨.tuple (if n then [] else if entry then [] else ['(']) (if n then [] else if entry then [] else [')'])
        (if entry then [':', ' '] else [',', ' ']) fs, ?_, ?_, ?_⟩
      · intro r tail hbt hat
        obtain rfl := hb hbt
        have hh := head_at hat
        have e1 : (FTy.tuple entry ts).fresh = .tuple (if entry then [] else ['(']) (if entry then [] else [')'])
            (if entry then [':', ' '] else [',', ' ']) (FTy.freshEach ts) := by
          rw [FTy.fresh]; cases entry <;> rfl
        rw [e1, Fmtr.parseWith, M.bind_ok (parseHead hat)]
        simp only
        by_cases hne : ts = []
        · subst hne
          have hel : elem = none := by
            by_contra h; exact nonempty h rfl
          subst hel
          have : fs = [] := List.eq_nil_of_length_eq_zero hf1
          subst this
          have hh' : (r.adv ((if n then 1 else 0) + 0)).At ['}'] := hh
          rw [if_pos (by rfl), if_neg (by simp)]
          rw [M.bind_ok (M.modify_run _ _)]
          have := hh'.pop1
          simp only [Option.isSome_none, Bool.false_eq_true, if_false]
          rw [this, M.pure_run, adv_adv, rangeSpec_length]
          simp
        · have hval := hf3 _ 0 hh
          rw [if_neg hne] at hval
          rw [if_neg (by rw [freshEach_isEmpty]; simpa using hne), Option.not_isSome, M.bind_ok (onCopies_ok hval)]
          simp only
          rw [M.bind_ok (M.modify_run _ _), pop_end hh, M.pure_run, adv_adv, rangeSpec_length]
          simp [Nat.add_assoc]
      · intro v text hty hren
        obtain ⟨vs, texts, n', elem', rfl, hs, hl, he, rfl⟩ := renders_tuple hren _ _ rfl
        obtain ⟨rfl, rfl⟩ := rangeSpec_inj hs
        have hemit : Emits (FVal.formatTuple (if entry then [':', ' '] else [',', ' ']) true vs fs)
            ((if entry then [':', ' '] else [',', ' ']).intercalate texts) k := by
          cases hty with
          | tuple number each =>
            refine formatTuple_emits vs fs texts true hl (by omega) ?_
            intro i f v t hf hv ht
            have hi : i < ts.length := by
              rw [← number]
              exact (List.getElem?_eq_some_iff.1 hv).1
            exact (hf2 i ts[i] f (by simp [hi]) hf).1 v t (each i v _ hv (by simp [hi])) (he i _ v t (by simp [hi]) hv ht)
        rw [format_tuple]
        cases entry with
        | true =>
          have := bracketed_emits (n := true) (o := []) (c := []) hemit
          simpa [bracketed] using this
        | false => exact bracketed_emits hemit
      · intro hT v hty
        cases hty with
        | @tuple _ _ vs number each =>
          have hi1 : ∀ {i : Nat} {v : FVal}, vs[i]? = some v → i < ts.length := by
            intro i v hv
            rw [← number]
            exact (List.getElem?_eq_some_iff.1 hv).1
          rcases first_failing (P := fun i s => ∀ v t, vs[i]? = some v → ts[i]? = some t →
              Renders R t v elem.isNone (elem.getD []) s)
            (Q := fun i => ∃ v f, vs[i]? = some v ∧ fs[i]? = some f ∧ 'O' ∈ elem.getD [] ∧ Fails (v.format f) k)
            vs.length (fun i hi => by
              have hit : i < ts.length := by omega
              have hif : i < fs.length := by omega
              rcases (hf2 i ts[i] fs[i] (List.getElem?_eq_getElem hit) (List.getElem?_eq_getElem hif)).2 hT vs[i]
                (each i _ _ (List.getElem?_eq_getElem hi) (List.getElem?_eq_getElem hit)) with ⟨t, ht⟩ | h
              · left
                refine ⟨t, fun v u hv hu => ?_⟩
                rw [List.getElem?_eq_getElem hi] at hv
                rw [List.getElem?_eq_getElem hit] at hu
                cases hv; cases hu; exact ht
              · exact Or.inr ⟨vs[i], fs[i], List.getElem?_eq_getElem hi, List.getElem?_eq_getElem hif, h⟩) with
            ⟨texts, h1, h2⟩ | ⟨i, hi, ⟨v, f, hv, hf, hO, hfail⟩, hj⟩
          · left
            cases entry with
            | true => exact ⟨_, .entry h1 (fun i t v s ht hv hs => h2 i s hs v t hv ht)⟩
            | false => exact ⟨_, .tuple h1 (fun i t v s ht hv hs => h2 i s hs v t hv ht)⟩
          · right
            refine ⟨rangeSpec_mem hO, ?_⟩
            rw [format_tuple]
            refine (emits_str _ k).fails (Fails.bind (formatTuple_fails vs fs true i v f hv hf hfail ?_))
            intro j hji w g hw hg
            obtain ⟨s, hs⟩ := hj j hji
            have hjt := hi1 hw
            have hjt' := List.getElem?_eq_getElem hjt
            exact ⟨s, (hf2 j _ g hjt' hg).1 w s (each j w _ hw hjt') (hs w _ hw hjt')⟩
  | @optional t s content ih =>
    obtain ⟨ihv, ihp⟩ := ih
    have hb : ∀ {tail}, Behind (.optional t) tail → Behind t tail := fun h => h
    refine ⟨?_, ?_⟩
    · intro r tail hbt hat
      rw [FTy.validate]
      exact ihv r tail (hb hbt) hat
    · intro d hd
      obtain ⟨f, hf1, hf2, hf3⟩ := ihp none (by simp)
      refine ⟨.optional f, ?_, ?_, ?_⟩
      · intro r tail hbt hat
        rw [FTy.fresh, Fmtr.parseWith, M.bind_ok (hf1 r tail (hb hbt) hat)]
        rfl
      · intro v text hty hren
        generalize d.getD false = q at hren
        cases hren with
        | none => rw [format_none]; exact emits_str _ k
        | some content =>
          cases hty with
          | some hc =>
            rw [format_some, List.append_assoc]
            exact Emits.seq (emits_str _ k) (Emits.seq (hf2 _ _ hc content) (emits_char _ hk))
      · intro hT v hty
        cases hty with
        | none => exact Or.inl ⟨_, .none⟩
        | some hc =>
          rcases hf3 hT _ hc with ⟨text, h⟩ | ⟨hO, h⟩
          · exact Or.inl ⟨_, .some h⟩
          · right
            refine ⟨hO, ?_⟩
            rw [format_some]
            exact (emits_str _ k).fails (Fails.bind h)
  | monostate =>
    refine ⟨?_, ?_⟩
    · intro r tail _ hat
      rw [FTy.validate, M.bind_ok (matchBrace hat)]
      rfl
    · intro d _
      refine ⟨.monostate, ?_, ?_, ?_⟩
      · intro r tail _ hat
        rw [FTy.fresh, Fmtr.parseWith, M.bind_ok (matchBrace hat)]
        rfl
      · intro v text hty hren
        generalize d.getD false = q at hren
        cases hren with
        | monostate => exact emits_str _ k
      · intro _ v hty
        cases hty with
        | monostate => exact Or.inl ⟨_, .monostate⟩
  | @variant ts each ih =>
    refine ⟨?_, ?_⟩
    · intro r tail _ hat
      rw [FTy.validate, M.bind_ok (matchBrace hat)]
      rfl
    · intro d _
      refine ⟨.variant, ?_, ?_, ?_⟩
      · intro r tail _ hat
        rw [FTy.fresh, Fmtr.parseWith, M.bind_ok (matchBrace hat)]
        rfl
      · intro v text hty hren
        generalize d.getD false = q at hren
        cases hren with
        | valueless =>
          rw [format_valueless]
          exact Emits.seq (emits_str _ k) (Emits.seq (emits_str _ k) (emits_char _ hk))
        | @variant ts t v q text mem content =>
          rw [format_variant, List.append_assoc]
          refine Emits.seq (emits_str _ k) (Emits.seq ?_ (emits_char _ hk))
          have htv : HasType v t := by
            cases hty with
            | variant _ content => exact content
          by_cases hc : ∃ c, v = .core (.char c)
          · obtain ⟨c, rfl⟩ := hc
            exact unnamed_char hR htv content c rfl
          · by_cases hs : ∃ c, v = .core (.string c)
            · obtain ⟨c, rfl⟩ := hs
              exact unnamed_string hR htv content c rfl
            · obtain ⟨f, h1, h2, _⟩ := (ih t mem).2 none (by simp)
              rw [variantContent_parsed (h1 _ [] (Or.inr rfl) (at_ofStr ['}'])) (fun c h => hc ⟨c, h⟩)
                (fun c h => hs ⟨c, h⟩)]
              exact h2 v text htv (renders_unquoted content (fun _ => rfl) (fun c h => hc ⟨c, h⟩) (fun c h => hs ⟨c, h⟩))
      · intro hT v hty
        left
        cases hty with
        | valueless => exact ⟨_, .valueless⟩
        | @variant _ t v mem content =>
          have hcore : ∀ a, v = .core a → ∃ text, Renders R t v true [] text := by
            rintro a rfl
            obtain ⟨_, e, e', valid⟩ : ∃ b, FVal.core a = .core b ∧ FTy.core b.ty = t ∧ ValidArg b := by
              cases content with
              | core valid => exact ⟨_, rfl, rfl, valid⟩
            cases e; cases e'
            obtain ⟨h1, h2, h3⟩ := quotedSpec_ok a.ty
            rcases hT a _ h1 h2 h3 valid with ⟨text, h⟩ | ⟨h, _⟩
            · exact ⟨text, .quoted h⟩
            · exfalso
              rw [quotedSpec_meaning] at h
              split at h <;> exact absurd h (by decide)
          suffices h : ∃ text, Renders R t v true [] text by
            obtain ⟨text, h⟩ := h
            exact ⟨_, .variant mem h⟩
          by_cases hc : ∃ a, v = .core a
          · obtain ⟨a, ha⟩ := hc
            exact hcore a ha
          · obtain ⟨f, _, _, h3⟩ := (ih t mem).2 none (by simp)
            rcases h3 hT v content with ⟨text, h⟩ | ⟨hO, _⟩
            · exact ⟨text, renders_quoted h rfl (fun c h => hc ⟨_, h⟩) (fun c h => hc ⟨_, h⟩)⟩
            · simp at hO

end Emio
