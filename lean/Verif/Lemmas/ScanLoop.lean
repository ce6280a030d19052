import Verif.Lemmas.ScanNumber
import Verif.Lemmas.ParserForward
import Verif.Lemmas.Format
/-
Scan strings: literal text and fields, one after the other.
-/
namespace Emio
open Reader Spec

/-! ### Literal text -/

/-- The pieces of literal text the parser hands over: each ends with a brace, or at the end. -/
def litPieces : Str → Str → List Str
  | pend, [] => if pend ≠ [] then [pend] else []
  | pend, c :: l => if c = '{' ∨ c = '}' then (pend ++ [c]) :: litPieces [] l else litPieces (pend ++ [c]) l

theorem litPieces_flatten : ∀ (l pend : Str), (litPieces pend l).flatten = pend ++ l := by
  intro l
  induction l with
  | nil => intro pend; unfold litPieces; split <;> simp_all
  | cons c l ih =>
    intro pend
    unfold litPieces
    split
    · simp [ih]
    · simp [ih]

theorem litPieces_plain : ∀ (l pend : Str), '{' ∉ l → '}' ∉ l → litPieces pend l = if pend ++ l ≠ [] then [pend ++ l] else [] := by
  intro l
  induction l with
  | nil => intro pend _ _; simp [litPieces]
  | cons c l ih =>
    intro pend h1 h2
    simp only [List.mem_cons, not_or] at h1 h2
    unfold litPieces
    rw [if_neg (by simp [Ne.symm h1.1, Ne.symm h2.1]), ih _ h1.2 h2.2]
    simp

theorem uscan_lit : ∀ (lit rest : Str) (pend : Str) (n : Nat), (rest = [] ∨ ∃ d tl, rest = '{' :: d :: tl ∧ d ≠ '{') →
    Unchecked.scan pend (escBraces lit ++ rest) n =
      some (n + (escBraces lit).length + (if rest = [] then 0 else 1), decide (rest ≠ []), litPieces pend lit) := by
  intro lit
  induction lit with
  | nil =>
    intro rest pend n h
    rcases h with rfl | ⟨d, tl, rfl, hd⟩
    · simp [escBraces, Unchecked.scan, litPieces]
    · simp only [escBraces, List.flatMap_nil, List.nil_append]
      rw [uscan_open, if_neg hd]
      simp [litPieces]
  | cons c l ih =>
    intro rest pend n h
    rw [escBraces_cons]
    by_cases h1 : c = '{'
    · subst h1
      simp only [if_true, List.cons_append, List.nil_append]
      rw [uscan_open, if_pos rfl, ih rest [] (n + 2) h]
      simp only [litPieces, true_or, if_true, List.length_cons]
      rw [show n + 2 + (escBraces l).length = n + ((escBraces l).length + 1 + 1) by omega]
    · by_cases h2 : c = '}'
      · subst h2
        simp only [if_neg h1, if_true, List.cons_append, List.nil_append]
        rw [uscan_close, ih rest [] (n + 2) h]
        simp only [litPieces, or_true, if_true, List.length_cons]
        rw [show n + 2 + (escBraces l).length = n + ((escBraces l).length + 1 + 1) by omega]
      · simp only [if_neg h1, if_neg h2, List.cons_append, List.nil_append]
        rw [uscan_other pend h1 h2, ih rest _ (n + 1) h]
        simp only [litPieces, h1, h2, or_self, if_false, List.length_cons]
        rw [show n + 1 + (escBraces l).length = n + ((escBraces l).length + 1) by omega]

/-- Matching pieces one after the other. -/
theorem matchAll_spec : ∀ (ps : List Str) (r : Reader), r.Inv →
    (ps.flatten <+: r.rest → matchAll ps r = .ok (r.adv ps.flatten.length) ()) ∧
    (¬ ps.flatten <+: r.rest → ∃ n e, matchAll ps r = .err (r.adv n) e ∧ (r.adv n).Inv ∧ (e = .eof ∨ e = .invalidData) ∧
      n < ps.flatten.length) := by
  intro ps
  induction ps with
  | nil => intro r _; exact ⟨fun _ => rfl, fun h => absurd (List.nil_prefix) h⟩
  | cons p ps ih =>
    intro r hi
    unfold matchAll
    by_cases hp : p <+: r.rest
    · obtain ⟨tail, ht⟩ := hp
      have hat : r.At (p ++ tail) := ⟨hi, ht.symm⟩
      have hm : readIfMatchStr p r = .ok (r.adv p.length) p := by
        rw [C06_read_if_match_str, if_pos ⟨tail, ht⟩]; rfl
      rw [M.bind_ok hm]
      obtain ⟨h1, h2⟩ := ih (r.adv p.length) hat.adv.1
      have hiff : (p :: ps).flatten <+: r.rest ↔ ps.flatten <+: (r.adv p.length).rest := by
        rw [hat.adv.2, ← ht, List.flatten_cons, List.prefix_append_right_inj]
      constructor
      · intro h
        rw [h1 (hiff.1 h), adv_adv]
        simp
      · intro h
        obtain ⟨n, e, g1, g2, g3, g4⟩ := h2 (fun hh => h (hiff.2 hh))
        refine ⟨p.length + n, e, by rw [g1, adv_adv], by rw [← adv_adv]; exact g2, g3, by simp only [List.flatten_cons, List.length_append]; omega⟩
    · constructor
      · intro h
        exact absurd ((List.prefix_append p ps.flatten).trans (by simpa using h)) hp
      · intro _
        have hp0 : p ≠ [] := by rintro rfl; exact hp List.nil_prefix
        have hl : 0 < (p :: ps).flatten.length := by
          have := List.length_pos_of_ne_nil hp0
          simp; omega
        by_cases hlen : r.rest.length < p.length
        · have hm : readIfMatchStr p r = .err r .eof := by
            rw [C06_read_if_match_str, if_neg hp, if_pos hlen]
          rw [M.bind_err hm]
          exact ⟨0, _, rfl, hi, Or.inl rfl, hl⟩
        · have hm : readIfMatchStr p r = .err r .invalidData := by
            rw [C06_read_if_match_str, if_neg hp, if_neg hlen]
          rw [M.bind_err hm]
          exact ⟨0, _, rfl, hi, Or.inr rfl, hl⟩

/-- Matching literal text. -/
def matchLit (lit : Str) : M Reader Unit := matchAll (litPieces [] lit)

theorem matchLit_ok {lit rest : Str} {r : Reader} (h : r.At (lit ++ rest)) : matchLit lit r = .ok (r.adv lit.length) () := by
  have := (matchAll_spec (litPieces [] lit) r h.1).1
  rw [litPieces_flatten] at this
  exact this ⟨rest, h.2.symm⟩

theorem matchLit_inv {lit : Str} {r r' : Reader} {u : Unit} (hi : r.Inv) (h : matchLit lit r = .ok r' u) :
    ∃ rest, r.At (lit ++ rest) ∧ r' = r.adv lit.length := by
  have hs := matchAll_spec (litPieces [] lit) r hi
  rw [litPieces_flatten] at hs
  by_cases hp : lit <+: r.rest
  · obtain ⟨rest, hr⟩ := hp
    unfold matchLit at h
    rw [hs.1 ⟨rest, hr⟩] at h
    exact ⟨rest, ⟨hi, hr.symm⟩, (ok_inj h).1.symm⟩
  · obtain ⟨n, e, h1, _⟩ := hs.2 hp
    unfold matchLit at h
    rw [h1] at h
    simp at h

theorem matchLit_cases (lit : Str) {r : Reader} (hi : r.Inv) :
    (∃ rest, r.At (lit ++ rest) ∧ matchLit lit r = .ok (r.adv lit.length) ()) ∨
    ∃ r' e, matchLit lit r = .err r' e ∧ r'.Inv := by
  have hs := matchAll_spec (litPieces [] lit) r hi
  rw [litPieces_flatten] at hs
  by_cases hp : lit <+: r.rest
  · obtain ⟨rest, hr⟩ := hp
    exact Or.inl ⟨rest, ⟨hi, hr.symm⟩, hs.1 ⟨rest, hr⟩⟩
  · obtain ⟨n, e, h1, h2, _⟩ := hs.2 hp
    exact Or.inr ⟨_, e, h1, h2⟩

/-! ### Strings depend on what follows only -/

theorem readUntilAnyOf_at {r : Reader} {l : Str} (h : r.At l) :
    (l = [] → readUntilAnyOf "{}".toList { keepDelimiter := true } r = .err r .eof) ∧
    (l ≠ [] → '{' ∉ l → '}' ∉ l → readUntilAnyOf "{}".toList { keepDelimiter := true } r = .ok (r.adv l.length) l) ∧
    (∀ a c b, l = a ++ c :: b → '{' ∉ a → '}' ∉ a → (c = '{' ∨ c = '}') →
      readUntilAnyOf "{}".toList { keepDelimiter := true } r = .ok (r.adv a.length) a) := by
  unfold readUntilAnyOf
  have hyp := findIf_hyp (fun c => "{}".toList.contains c) r
  rw [readUntilPos_eq _ _ 1 r h.1 hyp, h.2]
  have hc : ∀ c, "{}".toList.contains c = true ↔ c = '{' ∨ c = '}' := by
    intro c
    rw [List.contains_iff_mem]
    show c ∈ ['{', '}'] ↔ _
    simp
  refine ⟨fun hl => by rw [if_pos hl], fun hl h1 h2 => ?_, fun a c b hl h1 h2 hb => ?_⟩
  · have : findIf (fun c => "{}".toList.contains c) l = none := by
      rw [findIf_none]
      intro c hm
      rw [Bool.eq_false_iff]
      intro hcc
      rcases (hc c).1 hcc with rfl | rfl
      · exact h1 hm
      · exact h2 hm
    rw [if_neg hl, this]
    simp only [Bool.false_eq_true, if_false]
    have := h.pos
    congr 1
    unfold adv
    rw [this]
  · have hne : l ≠ [] := by rw [hl]; simp
    have : findIf (fun c => "{}".toList.contains c) l = some a.length := by
      rw [findIf_some]
      refine ⟨⟨c, by rw [hl]; simp, (hc c).2 hb⟩, fun j hj x hx => ?_⟩
      have hx' : x ∈ a := by
        rw [hl, List.drop_append_of_le_length (by omega)] at hx
        cases hd : a.drop j with
        | nil => have := congrArg List.length hd; simp at this; omega
        | cons y ys =>
          rw [hd] at hx
          simp at hx
          subst hx
          exact List.mem_of_mem_drop (by rw [hd]; simp)
      rw [Bool.eq_false_iff]
      intro hcc
      rcases (hc x).1 hcc with rfl | rfl
      · exact h1 hx'
      · exact h2 hx'
    rw [if_neg hne, this]
    simp only [if_true, Bool.false_eq_true, if_false]
    rw [hl]
    simp [adv]

/-- Text up to the first brace. -/
theorem brace_split (l : Str) : ('{' ∉ l ∧ '}' ∉ l) ∨
    ∃ a c b, l = a ++ c :: b ∧ '{' ∉ a ∧ '}' ∉ a ∧ (c = '{' ∨ c = '}') := by
  induction l with
  | nil => simp
  | cons x l ih =>
    by_cases h1 : x = '{'
    · exact Or.inr ⟨[], x, l, rfl, by simp, by simp, Or.inl h1⟩
    · by_cases h2 : x = '}'
      · exact Or.inr ⟨[], x, l, rfl, by simp, by simp, Or.inr h2⟩
      · rcases ih with ⟨g1, g2⟩ | ⟨a, c, b, rfl, g1, g2, g3⟩
        · left; simp [g1, g2, Ne.symm h1, Ne.symm h2]
        · exact Or.inr ⟨x :: a, c, b, rfl, by simp [g1, Ne.symm h1], by simp [g2, Ne.symm h2], g3⟩

/-- What a string field does, in terms of the scan string behind it. -/
theorem readString_at (s : ScanSpecs) {fmt : Reader} {l : Str} (h : fmt.At l) (r : Reader) :
    (s.width ≠ noWidth → readString s fmt r = readNChars (toSize s.width) r) ∧
    (s.width = noWidth →
      (l = [] → readString s fmt r = readRemaining r) ∧
      (l ≠ [] → '{' ∉ l → '}' ∉ l → readString s fmt r = readUntilStr l { keepDelimiter := true } r) ∧
      ∀ a c b, l = a ++ c :: b → '{' ∉ a → '}' ∉ a → (c = '{' ∨ c = '}') →
        readString s fmt r = match b with
          | [] => .bad .ub
          | d :: _ => if c = '{' ∧ d ≠ '{' then readUntilStr a { keepDelimiter := true } r
            else readStringComplex (c :: b) r) := by
  obtain ⟨u1, u2, u3⟩ := readUntilAnyOf_at h
  refine ⟨fun hw => by unfold readString; rw [if_pos hw], fun hw => ?_⟩
  have hw' : ¬ s.width ≠ noWidth := by simp [hw]
  refine ⟨fun hl => ?_, fun hl h1 h2 => ?_, fun a c b hl h1 h2 hb => ?_⟩
  · unfold readString; rw [if_neg hw', u1 hl]
  · unfold readString; rw [if_neg hw', u2 hl h1 h2]
    have h' : fmt.At (l ++ []) := by simpa using h
    simp only [h'.adv.readChar_nil]
  · unfold readString; rw [if_neg hw', u3 a c b hl h1 h2 hb]
    rw [hl] at h
    simp only [h.adv.readChar]
    cases b with
    | nil => simp only [h.adv.adv1.readChar_nil]
    | cons d b =>
      simp only [h.adv.adv1.readChar]
      have : (((fmt.adv a.length).adv 1).adv 1).unpop 2 = fmt.adv a.length := by
        simp [unpop, adv, Nat.add_assoc]
        rw [if_pos (by omega)]
        simp; omega
      rw [this, h.adv.2]

theorem readString_ofStr (s : ScanSpecs) {fmt : Reader} {l : Str} (h : fmt.At l) (r : Reader) :
    readString s fmt r = readString s (.ofStr l) r := by
  have h1 := readString_at s h r
  have h2 := readString_at s (at_ofStr l) r
  by_cases hw : s.width = noWidth
  · obtain ⟨a1, a2, a3⟩ := h1.2 hw
    obtain ⟨b1, b2, b3⟩ := h2.2 hw
    rcases brace_split l with ⟨g1, g2⟩ | ⟨a, c, b, hl, g1, g2, g3⟩
    · by_cases hl : l = []
      · rw [a1 hl, b1 hl]
      · rw [a2 hl g1 g2, b2 hl g1 g2]
    · rw [a3 a c b hl g1 g2 g3, b3 a c b hl g1 g2 g3]
  · rw [h1.1 hw, h2.1 hw]

/-! A string field does not look into the fields behind it. -/

/-- The same literal text, then a field. -/
def SameLit (f g : Str) : Prop :=
  ∃ lit d d' y y', f = escBraces lit ++ '{' :: d :: y ∧ g = escBraces lit ++ '{' :: d' :: y' ∧ d ≠ '{' ∧ d' ≠ '{'

theorem SameLit.next {x x' : Char} {f g : Str} (h : SameLit (x :: f) (x' :: g)) :
    (nextLiteral x f = some none ∧ nextLiteral x' g = some none) ∨
    ∃ c f' g', nextLiteral x f = some (some (c, f')) ∧ nextLiteral x' g = some (some (c, g')) ∧ SameLit f' g' := by
  obtain ⟨lit, d, d', y, y', h1, h2, hd, hd'⟩ := h
  cases lit with
  | nil =>
    simp only [escBraces, List.flatMap_nil, List.nil_append, List.cons.injEq] at h1 h2
    obtain ⟨rfl, rfl⟩ := h1
    obtain ⟨rfl, rfl⟩ := h2
    left
    simp [nextLiteral, hd, hd']
  | cons c l =>
    right
    rw [escBraces_cons] at h1 h2
    split at h1
    · rename_i hc
      rw [if_pos hc] at h2
      simp only [List.cons_append, List.nil_append, List.cons.injEq] at h1 h2
      obtain ⟨rfl, rfl⟩ := h1
      obtain ⟨rfl, rfl⟩ := h2
      exact ⟨'{', _, _, by simp [nextLiteral], by simp [nextLiteral], l, d, d', y, y', rfl, rfl, hd, hd'⟩
    · rename_i hc
      rw [if_neg hc] at h2
      split at h1
      · rename_i hc'
        rw [if_pos hc'] at h2
        simp only [List.cons_append, List.nil_append, List.cons.injEq] at h1 h2
        obtain ⟨rfl, rfl⟩ := h1
        obtain ⟨rfl, rfl⟩ := h2
        exact ⟨'}', _, _, by simp [nextLiteral], by simp [nextLiteral], l, d, d', y, y', rfl, rfl, hd, hd'⟩
      · rename_i hc'
        rw [if_neg hc'] at h2
        simp only [List.cons_append, List.nil_append, List.cons.injEq] at h1 h2
        obtain ⟨rfl, rfl⟩ := h1
        obtain ⟨rfl, rfl⟩ := h2
        exact ⟨x', _, _, by simp [nextLiteral, hc, hc'], by simp [nextLiteral, hc, hc'], l, d, d', y, y', rfl, rfl,
          hd, hd'⟩

theorem SameLit.cons {f g : Str} (h : SameLit f g) : ∃ x x' f' g', f = x :: f' ∧ g = x' :: g' := by
  obtain ⟨lit, d, d', y, y', rfl, rfl, _, _⟩ := h
  obtain ⟨a, b, h1⟩ := exists_cons_append (escBraces lit) '{' (d :: y)
  obtain ⟨a', b', h1'⟩ := exists_cons_append (escBraces lit) '{' (d' :: y')
  exact ⟨a, a', b, b', h1, h1'⟩

theorem complexLoop_same {fmt fmt' : Str} (hs : SameLit fmt fmt') : ∀ (inp f g : Str) (k m : Nat), SameLit f g →
    complexLoop fmt inp f k m = complexLoop fmt' inp g k m := by
  intro inp
  induction inp with
  | nil =>
    intro f g k m h
    obtain ⟨x, x', f', g', rfl, rfl⟩ := h.cons
    rfl
  | cons c cs ih =>
    intro f g k m h
    obtain ⟨x, x', f', g', rfl, rfl⟩ := h.cons
    unfold complexLoop
    rcases h.next with ⟨h1, h2⟩ | ⟨e, f1, g1, h1, h2, h3⟩
    · rw [h1, h2]
    · rw [h1, h2]
      simp only
      split
      · exact ih _ _ _ _ h3
      · exact ih _ _ _ _ hs

theorem SameLit.split {f g : Str} (h : SameLit f g) :
    (∃ a d d' y y', f = a ++ '{' :: d :: y ∧ g = a ++ '{' :: d' :: y' ∧ '{' ∉ a ∧ '}' ∉ a ∧ d ≠ '{' ∧ d' ≠ '{') ∨
    ∃ a c y y', f = a ++ c :: c :: y ∧ g = a ++ c :: c :: y' ∧ '{' ∉ a ∧ '}' ∉ a ∧ (c = '{' ∨ c = '}') ∧
      SameLit (c :: c :: y) (c :: c :: y') := by
  obtain ⟨lit, d, d', y, y', rfl, rfl, hd, hd'⟩ := h
  rcases brace_split lit with ⟨g1, g2⟩ | ⟨a, c, b, rfl, g1, g2, g3⟩
  · left
    rw [escBraces_plain g1 g2]
    exact ⟨lit, d, d', y, y', rfl, rfl, g1, g2, hd, hd'⟩
  · right
    have he : escBraces (c :: b) = c :: c :: escBraces b := by
      rcases g3 with rfl | rfl <;> rw [escBraces_cons] <;> simp
    refine ⟨a, c, escBraces b ++ '{' :: d :: y, escBraces b ++ '{' :: d' :: y', ?_, ?_, g1, g2, g3, c :: b, d, d', y, y', ?_, ?_, hd, hd'⟩
    · rw [show escBraces (a ++ c :: b) = escBraces a ++ escBraces (c :: b) by simp [escBraces], escBraces_plain g1 g2, he]; simp
    · rw [show escBraces (a ++ c :: b) = escBraces a ++ escBraces (c :: b) by simp [escBraces], escBraces_plain g1 g2, he]; simp
    · rw [he]; rfl
    · rw [he]; rfl

theorem readString_same (s : ScanSpecs) {f g : Str} (h : SameLit f g) (r : Reader) :
    readString s (.ofStr f) r = readString s (.ofStr g) r := by
  obtain ⟨w1, n1⟩ := readString_at s (at_ofStr f) r
  obtain ⟨w2, n2⟩ := readString_at s (at_ofStr g) r
  by_cases hw : s.width = noWidth
  swap
  · rw [w1 hw, w2 hw]
  obtain ⟨_, _, b1⟩ := n1 hw
  obtain ⟨_, _, b2⟩ := n2 hw
  rcases h.split with ⟨a, d, d', y, y', e1, e2, g1, g2, hd, hd'⟩ | ⟨a, c, y, y', e1, e2, g1, g2, hc, hs⟩
  · rw [b1 a '{' _ e1 g1 g2 (Or.inl rfl), b2 a '{' _ e2 g1 g2 (Or.inl rfl)]
    simp [hd, hd']
  · rw [b1 a c _ e1 g1 g2 hc, b2 a c _ e2 g1 g2 hc]
    simp only
    have hno : ¬ (c = '{' ∧ c ≠ '{') := fun h => h.2 h.1
    rw [if_neg hno, if_neg hno]
    unfold readStringComplex
    rw [complexLoop_same hs _ _ _ _ _ hs]

theorem scan_same (ty : ScanTy) (s : ScanSpecs) {f g : Str} (h : SameLit f g) :
    ty.scan s (.ofStr f) = ty.scan s (.ofStr g) := by
  cases ty with
  | char => rfl
  | int t => rfl
  | string =>
    funext st
    simp only [ScanTy.scan, readStringArg, readString_same s h]

theorem scan_ofStr (ty : ScanTy) (s : ScanSpecs) {fmt : Reader} {l : Str} (h : fmt.At l) :
    ty.scan s fmt = ty.scan s (.ofStr l) := by
  cases ty with
  | char => rfl
  | int t => rfl
  | string =>
    funext st
    simp only [ScanTy.scan, readStringArg, readString_ofStr s h]

/-! ### Scan strings, field by field -/

/-- On the input. -/
def ScanIO.onInp (m : M Reader Unit) : M ScanIO Unit := fun io =>
  match m io.inp with
  | .ok r _ => .ok { io with inp := r } ()
  | .err r e => .err { io with inp := r } e
  | .bad b => .bad b

/-- On the input and variable `n`. -/
def ScanIO.onVar (n : Nat) (m : M Slot Unit) : M ScanIO Unit := fun io =>
  match io.vars[n]? with
  | none => .bad .ub
  | some v =>
    match m ⟨io.inp, v⟩ with
    | .ok sl _ => .ok ⟨sl.inp, io.vars.set n sl.var⟩ ()
    | .err sl e => .err ⟨sl.inp, io.vars.set n sl.var⟩ e
    | .bad b => .bad b

/-- What a scan string does, `tail` being ignored text at its end: match literal text, read a variable, and so on. -/
def scanSegs (tys : List ScanTy) (last tail : Str) : Nat → List (Str × ScanHole) → M ScanIO Unit
  | _, [] => ScanIO.onInp (matchLit last)
  | i, (lit, h) :: segs => do
    ScanIO.onInp (matchLit lit)
    match tys[h.field.argument i]? with
    | none => M.bad .ub
    | some ty =>
      ScanIO.onVar (h.field.argument i) (ty.scan h.sp.taken (.ofStr (ScanTemplate.text ⟨segs, last⟩ ++ tail)))
      scanSegs tys last tail (i + 1) segs

/-- The input and the variables of a scan run. -/
def SSt.io (s : SSt) : ScanIO := ⟨s.inp, s.vars⟩

/-- Outcome in terms of input and variables. -/
def ioOf : Run SSt Unit → Run ScanIO Unit
  | .ok s u => .ok s.io u
  | .err s e => .err s.io e
  | .bad b => .bad b

theorem scanParse_field {p p' : PSt} {k : Nat} {lit idx rest : Str} {colon : Bool}
    (hat : p.rdr.At (escBraces lit ++ '{' :: (idx ++ ((if colon then [':'] else []) ++ rest))))
    (hd : ∀ c ∈ idx, isDigit c = true) (hb : colon = false → rest.head? = some '}')
    (hp : Checked.parse p = .ok p' k) (inp : Reader) (vars : List ScanVal) :
    (∀ r, matchLit lit inp = .ok r () → scanParse ⟨p, inp, vars⟩ = .ok ⟨p', r, vars⟩ k) ∧
    (∀ r e, matchLit lit inp = .err r e → ∃ q, scanParse ⟨p, inp, vars⟩ = .err ⟨q, r, vars⟩ e) := by
  obtain ⟨d, tl, hdt, hne⟩ := field_head hd hb
  have hsc : Unchecked.scan [] p.rdr.rest 0 = some ((escBraces lit).length + 1, true, litPieces [] lit) := by
    rw [hat.2, hdt, uscan_lit lit _ [] 0 (Or.inr ⟨d, tl, rfl, hne⟩)]
    simp
  have hrf : Unchecked.replacementField { p with rdr := p.rdr.adv ((escBraces lit).length + 1) } = .ok p' k := by
    refine replacementField_agree ?_
    unfold Checked.parse at hp
    rw [hat.2, hdt, scan_lit, scan_open, if_neg hne] at hp
    simpa [adv] using hp
  constructor
  · intro r hr
    unfold matchLit at hr
    unfold scanParse
    simp only [hsc, hr, Bool.not_true, Bool.false_eq_true, if_false]
    unfold adv at hrf
    rw [hrf]
  · intro r e hr
    unfold matchLit at hr
    unfold scanParse
    simp only [hsc, hr]
    exact ⟨_, rfl⟩

theorem scanParse_end {p : PSt} {lit : Str} (hat : p.rdr.At (escBraces lit)) (inp : Reader) (vars : List ScanVal) :
    (∀ r, matchLit lit inp = .ok r () → ∃ q, scanParse ⟨p, inp, vars⟩ = .ok ⟨q, r, vars⟩ noMoreArgs) ∧
    (∀ r e, matchLit lit inp = .err r e → ∃ q, scanParse ⟨p, inp, vars⟩ = .err ⟨q, r, vars⟩ e) := by
  have hsc : Unchecked.scan [] p.rdr.rest 0 = some ((escBraces lit).length, false, litPieces [] lit) := by
    have := uscan_lit lit [] [] 0 (Or.inl rfl)
    rw [List.append_nil] at this
    rw [hat.2, this]
    simp
  constructor
  · intro r hr
    unfold matchLit at hr
    unfold scanParse
    simp only [hsc, hr, Bool.not_false, if_true]
    exact ⟨_, rfl⟩
  · intro r e hr
    unfold matchLit at hr
    unfold scanParse
    simp only [hsc, hr]
    exact ⟨_, rfl⟩

theorem scanTemplate_text_cons (lit : Str) (h : ScanHole) (segs : List (Str × ScanHole)) (last : Str) :
    ScanTemplate.text ⟨(lit, h) :: segs, last⟩ = escBraces lit ++ '{' :: (h.idx ++ ((if h.spec.isSome then [':'] else []) ++
      ((match h.spec with | some t => t.text | none => []) ++ '}' :: ScanTemplate.text ⟨segs, last⟩))) := by
  simp [ScanTemplate.text, ScanTemplate.format, FormatText.text, Field.text, ScanHole.field]
  cases h.spec <;> rfl

theorem scanTemplate_text_nil (last : Str) : ScanTemplate.text ⟨[], last⟩ = escBraces last := by
  simp [ScanTemplate.text, ScanTemplate.format, FormatText.text]

theorem hole_sp_text (h : ScanHole) : (match h.spec with | some t => t.text | none => []) = h.sp.text := by
  unfold ScanHole.sp
  cases h.spec <;> rfl

/-! ### Which specifications a type allows -/

theorem scan_allows_iff (ty : ScanTy) {sp : ScanSpec} (wf : sp.WellFormed) (fits : sp.Fits) :
    ty.check sp.meaning = true ↔ ScanTy.Allows ty sp := by
  have ht : ∀ c, sp.type = some c → sp.meaning.type = c := by
    intro c hc; simp [ScanSpec.meaning, hc]
  have hn : sp.type = none → sp.meaning.type = noChar := (scan_type_none wf).2
  have hnc : ∀ c, sp.type = some c → c ≠ noChar := by
    intro c hc hh
    have := (scan_type_none wf).1 ((ht c hc).trans hh)
    rw [hc] at this; cases this
  have ha : sp.meaning.alternateForm = sp.alt := rfl
  have hwid : (sp.meaning.width > 1 → False) ↔ ∀ w ∈ sp.size, w = 1 := by
    unfold ScanSpec.meaning
    simp only
    cases hs : sp.size with
    | none => simp
    | some w =>
      have := fits w (by simp [hs])
      simp
      omega
  cases ty with
  | char =>
    simp only [ScanTy.check, checkScanChar, ScanTy.Allows, ha, ← hwid]
    cases hty : sp.type with
    | none => rw [hn hty]; simp
    | some c => rw [ht c hty]; have := hnc c hty; simp [this]; tauto
  | int t =>
    simp only [ScanTy.check, checkScanInt, ScanTy.Allows]
    cases hty : sp.type with
    | none => rw [hn hty]; simp
    | some c => rw [ht c hty]; have := hnc c hty; simp [this]; tauto
  | string =>
    simp only [ScanTy.check, checkScanString, ScanTy.Allows, ha]
    cases hty : sp.type with
    | none => rw [hn hty]; simp
    | some c => rw [ht c hty]; have := hnc c hty; simp [this]; tauto

theorem validate_fwd (ty : ScanTy) {sp : ScanSpec} (wf : sp.WellFormed) (fits : sp.Fits) {r : Reader} {tail : Str}
    (h : r.At (sp.text ++ '}' :: tail)) :
    (ScanTy.Allows ty sp → ty.validate r = .ok (r.adv (sp.text.length + 1)) ()) ∧
    (¬ ScanTy.Allows ty sp → ty.validate r = .err (r.adv (sp.text.length + 1)) .invalidFormat) := by
  unfold ScanTy.validate
  rw [M.bind_ok (scan_specs_forward wf fits h)]
  constructor
  · intro ha
    rw [if_pos ((scan_allows_iff ty wf fits).2 ha)]
    rfl
  · intro ha
    rw [if_neg (fun hc => ha ((scan_allows_iff ty wf fits).1 hc))]
    rfl

theorem validate_fwd_wide (ty : ScanTy) {sp : ScanSpec} (wf : sp.WellFormed) (pass : sp.NumbersPass) {r : Reader} {tail : Str}
    (h : r.At (sp.text ++ '}' :: tail)) (ha : ScanTy.Allows ty sp.reduced) :
    ty.validate r = .ok (r.adv (sp.text.length + 1)) () := by
  unfold ScanTy.validate
  rw [M.bind_ok (scan_specs_forward_wide wf pass h), ← scan_reduced_meaning,
    if_pos ((scan_allows_iff ty (scan_reduced_wellFormed wf) (scan_reduced_fits pass)).2 ha)]
  rfl

theorem scan_allows_reduced (ty : ScanTy) {sp : ScanSpec} (fits : sp.Fits) : ScanTy.Allows ty sp.reduced ↔ ScanTy.Allows ty sp := by
  have hs : sp.reduced.size = sp.size := by
    rw [scan_reduced_size]
    cases h : sp.size with
    | none => rfl
    | some w =>
      have := fits w (by simp [h])
      simp only [Option.map_some]
      rw [Nat.mod_eq_of_lt (by omega)]
  unfold ScanTy.Allows
  cases ty with
  | char => simp only [hs]; rfl
  | int t => rfl
  | string => rfl

theorem scan_parse_fwd (ty : ScanTy) {sp : ScanSpec} (wf : sp.WellFormed) (pass : sp.NumbersPass) {r : Reader} {tail : Str}
    (h : r.At (sp.text ++ '}' :: tail)) :
    ty.parse r = .ok (r.adv (sp.text.length + 1)) (ty.scan sp.taken (.ofStr tail)) := by
  obtain ⟨h1, _⟩ := scan_agree h.1 (scan_specs_forward_wide wf pass h)
  unfold ScanTy.parse
  rw [M.bind_ok h1, M.bind_ok (M.get_run _), M.pure_run]
  congr 1
  refine scan_ofStr ty _ ?_
  have : r.At ((sp.text ++ ['}']) ++ tail) := by simpa using h
  have := this.adv
  simpa using this

theorem scan_tame (ty : ScanTy) : ty.farg.Tame := by
  intro r hi
  show (∃ r' e, ty.validate r = .err r' e) ∨ ∃ body tail, body ≠ [] ∧ r.At (body ++ tail) ∧
    ty.validate r = .ok (r.adv body.length) ()
  rcases safe_scan_specs {} hi with ⟨r', e, h⟩ | ⟨r', a, h, _⟩
  · left
    unfold ScanTy.validate
    rw [M.bind_err h]
    exact ⟨_, _, rfl⟩
  · obtain ⟨t, tail, wf, hr, rfl, _⟩ := scan_specs_backward hi h
    unfold ScanTy.validate
    rw [M.bind_ok h]
    by_cases hc : ty.check a = true
    · right
      rw [if_pos hc]
      refine ⟨t.text ++ ['}'], tail, by simp, ⟨hi, by simpa using hr⟩, ?_⟩
      simp
    · left
      rw [if_neg hc]
      exact ⟨_, _, rfl⟩

end Emio
