import Verif.Spec.ScanCompose
import Verif.Lemmas.ScanExact
import Verif.Props.Octal
/-
Scan strings put together: the interpreter of C79 on two lists of parts, one behind the other.
-/
namespace Emio
open Spec

/-! ### Literal text -/

theorem matchPieces_text (l : Str) : ∀ (pend s : Str),
    (∀ rest u, matchPieces (textPieces pend l) s = .done rest u ↔ s = pend ++ l ++ rest) ∧
    matchPieces (textPieces pend l) s ≠ .undefined := by
  induction l with
  | nil =>
    intro pend s
    by_cases hp : pend = []
    · subst hp
      simp [textPieces, matchPieces]
    · simp only [textPieces, if_neg hp, matchPieces]
      by_cases h : pend <+: s
      · rw [if_pos h]
        obtain ⟨r, rfl⟩ := h
        simp
      · rw [if_neg h]
        simp only [reduceCtorEq, false_iff, ne_eq, not_false_eq_true, and_true]
        rintro rest _ rfl
        exact h ⟨rest, by simp⟩
  | cons c l ih =>
    intro pend s
    rw [textPieces]
    by_cases hb : isBrace c = true
    · rw [if_pos hb]
      simp only [matchPieces]
      by_cases h : pend ++ [c] <+: s
      · rw [if_pos h]
        obtain ⟨r, rfl⟩ := h
        obtain ⟨h1, h2⟩ := ih [] r
        simp only [List.drop_left]
        refine ⟨fun rest u => ?_, h2⟩
        rw [h1]
        simp
      · rw [if_neg h]
        simp only [reduceCtorEq, false_iff, ne_eq, not_false_eq_true, and_true]
        rintro rest _ rfl
        exact h ⟨l ++ rest, by simp⟩
    · rw [if_neg hb]
      obtain ⟨h1, h2⟩ := ih (pend ++ [c]) s
      refine ⟨fun rest u => ?_, h2⟩
      rw [h1]
      simp

/-- Literal text is read, or not. -/
theorem matchPieces_cases (l s : Str) : (∃ rest, s = l ++ rest ∧ matchPieces (textPieces [] l) s = .done rest ()) ∨
    ((¬ ∃ rest, s = l ++ rest) ∧ ∃ rest e, matchPieces (textPieces [] l) s = .stop rest e ()) := by
  obtain ⟨h1, h2⟩ := matchPieces_text l [] s
  cases h : matchPieces (textPieces [] l) s with
  | undefined => exact absurd h h2
  | done rest u => exact .inl ⟨rest, by simpa using (h1 rest u).1 h, rfl⟩
  | stop rest e u =>
    refine .inr ⟨?_, rest, e, rfl⟩
    rintro ⟨rest', hr⟩
    have := (h1 rest' ()).2 (by simpa using hr)
    rw [h] at this
    cases this

theorem matchPieces_append (a b s : Str) :
    (∃ rest, s = a ++ rest ∧ matchPieces (textPieces [] a) s = .done rest () ∧
      ((∃ rest', rest = b ++ rest' ∧ matchPieces (textPieces [] b) rest = .done rest' () ∧
        matchPieces (textPieces [] (a ++ b)) s = .done rest' ()) ∨
       ((∃ r e, matchPieces (textPieces [] b) rest = .stop r e ()) ∧
        ∃ r e, matchPieces (textPieces [] (a ++ b)) s = .stop r e ()))) ∨
    ((∃ r e, matchPieces (textPieces [] a) s = .stop r e ()) ∧ ∃ r e, matchPieces (textPieces [] (a ++ b)) s = .stop r e ()) := by
  rcases matchPieces_cases a s with ⟨rest, h1, h2⟩ | ⟨h1, h2⟩
  · refine .inl ⟨rest, h1, h2, ?_⟩
    rcases matchPieces_cases b rest with ⟨rest', g1, g2⟩ | ⟨g1, g2⟩
    · refine .inl ⟨rest', g1, g2, ?_⟩
      exact ((matchPieces_text (a ++ b) [] s).1 rest' ()).2 (by rw [h1, g1]; simp)
    · refine .inr ⟨g2, ?_⟩
      rcases matchPieces_cases (a ++ b) s with ⟨r', k1, _⟩ | ⟨_, k⟩
      · refine absurd ⟨r', ?_⟩ g1
        rw [h1] at k1
        simpa using k1
      · exact k
  · refine .inr ⟨h2, ?_⟩
    rcases matchPieces_cases (a ++ b) s with ⟨r', k1, _⟩ | ⟨_, k⟩
    · exact absurd ⟨b ++ r', by rw [k1]; simp⟩ h1
    · exact k

/-! ### One after the other -/

/-- The same outcome but for the error and the position of the reader. -/
def Spec.ScanEnd.Like {α : Type} : ScanEnd α → ScanEnd α → Prop
  | .done r a, .done r' a' => r = r' ∧ a = a'
  | .stop _ _ a, .stop _ _ a' => a = a'
  | .undefined, .undefined => True
  | _, _ => False

theorem Spec.ScanEnd.Like.refl {α : Type} (x : ScanEnd α) : x.Like x := by
  cases x <;> simp [ScanEnd.Like]

/-- And then. -/
def Spec.ScanEnd.andThen {α : Type} (x : ScanEnd α) (f : Str → α → ScanEnd α) : ScanEnd α :=
  match x with
  | .done rest a => f rest a
  | .stop rest e a => .stop rest e a
  | .undefined => .undefined

/-- Fields that are not strings without width do not depend on what follows. -/
theorem readField_indep {ty : ScanTy} {sp : ScanSpec} (h : ty = .string → sp.size ≠ none) (lit lit' : Str) (more more' : Bool)
    (old : ScanVal) (s : Str) : readField ty sp lit more old s = readField ty sp lit' more' old s := by
  cases ty with
  | char => rfl
  | int t => rfl
  | string =>
    simp only [readField, stringField]
    cases hs : sp.size with
    | none => exact absurd hs (h rfl)
    | some w => rfl

/-- Two lists of parts, one behind the other. -/
def segsJoined (segs : List (Str × ScanHole)) (last : Str) : List (Str × ScanHole) → List (Str × ScanHole)
  | [] => segs
  | (lit, h) :: segs' => segs ++ (last ++ lit, h) :: segs'

/-- The text behind the last field. -/
def lastJoined (last : Str) : List (Str × ScanHole) → Str → Str
  | [], last' => last ++ last'
  | _ :: _, last' => last'

theorem reference_append (tys : List ScanTy) (last last' tail : Str) (segs' : List (Str × ScanHole)) :
    ∀ (segs : List (Str × ScanHole)) (i : Nat) (s : Str) (vars : List ScanVal),
      (∀ x ∈ segs.getLast?, tys[x.2.field.argument (i + (segs.length - 1))]? = some .string → x.2.sp.size ≠ none) →
      (scanReference tys (lastJoined last segs' last') tail i (segsJoined segs last segs') s vars).Like
        ((scanReference tys last [] i segs s vars).andThen fun rest vars' =>
          scanReference tys last' tail (i + segs.length) segs' rest vars') := by
  intro segs
  induction segs with
  | nil =>
    intro i s vars _
    cases segs' with
    | nil =>
      simp only [segsJoined, lastJoined, scanReference, List.length_nil, Nat.add_zero]
      rcases matchPieces_append last last' s with ⟨rest, h1, h2, ⟨rest', h3, h4, h5⟩ | ⟨⟨_, _, h3⟩, ⟨_, _, h4⟩⟩⟩ |
        ⟨⟨_, _, h1⟩, ⟨_, _, h2⟩⟩
      · rw [h2, h5]; simp only [ScanEnd.andThen]; rw [h4]; exact .refl _
      · rw [h2, h4]; simp only [ScanEnd.andThen]; rw [h3]; rfl
      · rw [h1, h2]; rfl
    | cons y segs' =>
      obtain ⟨lit, h⟩ := y
      simp only [segsJoined, lastJoined, scanReference, List.length_nil, Nat.add_zero, List.nil_append]
      rcases matchPieces_append last lit s with ⟨rest, h1, h2, ⟨rest', h3, h4, h5⟩ | ⟨⟨_, _, h3⟩, ⟨_, _, h4⟩⟩⟩ |
        ⟨⟨_, _, h1⟩, ⟨_, _, h2⟩⟩
      · rw [h2, h5]; simp only [ScanEnd.andThen]; rw [h4]; exact .refl _
      · rw [h2, h4]; simp only [ScanEnd.andThen]; rw [h3]; rfl
      · rw [h1, h2]; rfl
  | cons y segs ih =>
    intro i s vars hl
    obtain ⟨lit, h⟩ := y
    have hj : segsJoined ((lit, h) :: segs) last segs' = (lit, h) :: segsJoined segs last segs' := by
      cases segs' <;> rfl
    rw [hj]
    simp only [scanReference]
    cases hm : matchPieces (textPieces [] lit) s with
    | undefined => trivial
    | stop rest e u => rfl
    | done s1 u =>
      simp only
      cases hty : tys[h.field.argument i]? with
      | none => cases vars[h.field.argument i]? <;> trivial
      | some ty =>
        cases hv : vars[h.field.argument i]? with
        | none => trivial
        | some old =>
          simp only
          have hr : readField ty h.sp (following (lastJoined last segs' last') (segsJoined segs last segs'))
              (decide (segsJoined segs last segs' ≠ [] ∨ tail ≠ [])) old s1 =
              readField ty h.sp (following last segs) (decide (segs ≠ [] ∨ ([] : Str) ≠ [])) old s1 := by
            cases segs with
            | nil =>
              apply readField_indep
              rintro rfl
              exact hl (lit, h) (by simp) (by simpa using hty)
            | cons z segs =>
              have hne : segsJoined (z :: segs) last segs' ≠ [] := by cases segs' <;> simp [segsJoined]
              have hf : following (lastJoined last segs' last') (segsJoined (z :: segs) last segs') = following last (z :: segs) := by
                cases segs' <;> rfl
              rw [hf]
              simp [hne]
          rw [hr]
          cases readField ty h.sp (following last segs) (decide (segs ≠ [] ∨ ([] : Str) ≠ [])) old s1 with
          | undefined => trivial
          | stop rest e v => rfl
          | done rest v =>
            simp only
            have := ih (i + 1) rest (vars.set (h.field.argument i) v) (by
              intro x hx hs
              cases segs with
              | nil => simp at hx
              | cons z segs =>
                refine hl x (by simpa using hx) ?_
                rw [show i + (((lit, h) :: z :: segs).length - 1) = i + 1 + ((z :: segs).length - 1) by simp; omega]
                exact hs)
            rw [show i + ((lit, h) :: segs).length = i + 1 + segs.length by simp; omega]
            exact this

/-! ### More variables -/

/-- Change what was stored. -/
def Spec.ScanEnd.mapVars {α β : Type} (f : α → β) : ScanEnd α → ScanEnd β
  | .done rest a => .done rest (f a)
  | .stop rest e a => .stop rest e (f a)
  | .undefined => .undefined

/-- Variables at the end that are not used. -/
theorem reference_before (tys₁ tys₂ : List ScanTy) (last tail : Str) (vars₂ : List ScanVal) :
    ∀ (segs : List (Str × ScanHole)) (i : Nat) (s : Str) (vars₁ : List ScanVal), tys₁.length = vars₁.length →
      (∀ (j : Nat) (x : Str × ScanHole), segs[j]? = some x → x.2.field.argument (i + j) < tys₁.length) →
      scanReference (tys₁ ++ tys₂) last tail i segs s (vars₁ ++ vars₂) =
        (scanReference tys₁ last tail i segs s vars₁).mapVars (· ++ vars₂) := by
  intro segs
  induction segs with
  | nil =>
    intro i s vars₁ _ _
    simp only [scanReference]
    cases matchPieces (textPieces [] last) s <;> rfl
  | cons y segs ih =>
    intro i s vars₁ hl hn
    obtain ⟨lit, h⟩ := y
    simp only [scanReference]
    cases matchPieces (textPieces [] lit) s with
    | undefined => rfl
    | stop rest e u => rfl
    | done s1 u =>
      have h0 : h.field.argument i < tys₁.length := hn 0 _ rfl
      simp only
      rw [List.getElem?_append_left h0, List.getElem?_append_left (by omega), List.getElem?_eq_getElem h0,
        List.getElem?_eq_getElem (show h.field.argument i < vars₁.length by omega)]
      simp only
      cases readField tys₁[h.field.argument i] h.sp (following last segs) (decide (segs ≠ [] ∨ tail ≠ []))
          vars₁[h.field.argument i] s1 with
      | undefined => rfl
      | stop rest e v => simp only; rw [List.set_append_left _ _ (by omega)]; rfl
      | done rest v =>
        simp only
        rw [List.set_append_left _ _ (by omega), ih (i + 1) rest _ (by simpa using hl) (by
          intro j x hx
          have := hn (j + 1) x (by simpa using hx)
          rwa [show i + (j + 1) = i + 1 + j by omega] at this)]

/-- Variables at the front, with automatic numbering. -/
theorem reference_behind (tys₁ tys₂ : List ScanTy) (last tail : Str) (vars₁ : List ScanVal) (hl : tys₁.length = vars₁.length) :
    ∀ (segs : List (Str × ScanHole)) (i : Nat) (s : Str) (vars₂ : List ScanVal), (∀ x ∈ segs, x.2.idx = []) →
      scanReference (tys₁ ++ tys₂) last tail (tys₁.length + i) segs s (vars₁ ++ vars₂) =
        (scanReference tys₂ last tail i segs s vars₂).mapVars (vars₁ ++ ·) := by
  intro segs
  induction segs with
  | nil =>
    intro i s vars₂ _
    simp only [scanReference]
    cases matchPieces (textPieces [] last) s <;> rfl
  | cons y segs ih =>
    intro i s vars₂ hn
    obtain ⟨lit, h⟩ := y
    simp only [scanReference]
    cases matchPieces (textPieces [] lit) s with
    | undefined => rfl
    | stop rest e u => rfl
    | done s1 u =>
      have harg : ∀ i, h.field.argument i = i := fun i => if_pos (hn (lit, h) (by simp))
      simp only [harg]
      rw [List.getElem?_append_right (by omega), List.getElem?_append_right (by omega), ← hl,
        show tys₁.length + i - tys₁.length = i by omega]
      cases tys₂[i]? with
      | none => cases vars₂[i]? <;> rfl
      | some ty =>
        cases vars₂[i]? with
        | none => rfl
        | some old =>
          simp only
          cases readField ty h.sp (following last segs) (decide (segs ≠ [] ∨ tail ≠ [])) old s1 with
          | undefined => rfl
          | stop rest e v =>
            simp only
            rw [List.set_append_right _ _ (by omega), ← hl, show tys₁.length + i - tys₁.length = i by omega]
            rfl
          | done rest v =>
            simp only
            rw [List.set_append_right _ _ (by omega), ← hl, show tys₁.length + i - tys₁.length = i by omega,
              show tys₁.length + i + 1 = tys₁.length + (i + 1) by omega, ih (i + 1) rest _ (fun x hx => hn x (by simp [hx]))]

/-- With numbers it does not matter how many fields there are before. -/
theorem reference_explicit (tys : List ScanTy) (last tail : Str) :
    ∀ (segs : List (Str × ScanHole)) (i i' : Nat) (s : Str) (vars : List ScanVal), (∀ x ∈ segs, x.2.idx ≠ []) →
      scanReference tys last tail i segs s vars = scanReference tys last tail i' segs s vars := by
  intro segs
  induction segs with
  | nil => intro i i' s vars _; simp only [scanReference]
  | cons y segs ih =>
    intro i i' s vars hn
    obtain ⟨lit, h⟩ := y
    have harg : ∀ i, h.field.argument i = numeralValue 10 h.field.idx := fun i => if_neg (hn (lit, h) (by simp))
    have hi : ∀ rest vars, scanReference tys last tail (i + 1) segs rest vars = scanReference tys last tail (i' + 1) segs rest vars :=
      fun rest vars => ih _ _ _ _ (fun x hx => hn x (by simp [hx]))
    simp only [scanReference, harg, hi]

/-- The number of variables stays the same. -/
theorem reference_length {tys : List ScanTy} {last tail : Str} : ∀ {segs : List (Str × ScanHole)} {i : Nat} {s rest : Str}
    {vars vars' : List ScanVal}, scanReference tys last tail i segs s vars = .done rest vars' → vars'.length = vars.length := by
  intro segs
  induction segs with
  | nil =>
    intro i s rest vars vars' h
    rw [scanReference] at h
    split at h <;> cases h
    rfl
  | cons seg segs ih =>
    intro i s rest vars vars' h
    obtain ⟨lit, hole⟩ := seg
    rw [scanReference] at h
    split at h
    · cases h
    · cases h
    · simp only at h
      split at h
      · split at h
        · rw [ih h, List.length_set]
        · cases h
        · cases h
      · cases h

/-! ### Variables in another order -/

/-- Each variable is where `f` says. -/
def Moved (n : Nat) (f : Nat → Nat) {α : Type} (l l' : List α) : Prop :=
  l.length = n ∧ l'.length = n ∧ ∀ k < n, l'[f k]? = l[k]?

theorem Moved.set {n : Nat} {f : Nat → Nat} {α : Type} {l l' : List α} (h : Moved n f l l') (hf : ∀ j < n, ∀ k < n, f j = f k → j = k)
    (hlt : ∀ k < n, f k < n) {k : Nat} (hk : k < n) (v : α) : Moved n f (l.set k v) (l'.set (f k) v) := by
  obtain ⟨h1, h2, h3⟩ := h
  refine ⟨by simpa using h1, by simpa using h2, fun j hj => ?_⟩
  have := hlt k hk
  by_cases e : j = k
  · subst e
    rw [List.getElem?_set_self (by omega), List.getElem?_set_self (by omega)]
  · rw [List.getElem?_set_ne (fun g => e (hf k hk j hj g).symm), List.getElem?_set_ne (fun g => e g.symm)]
    exact h3 j hj

/-- The outcome with the variables in another order. -/
def Spec.ScanEnd.MovedBy (n : Nat) (f : Nat → Nat) : ScanEnd (List ScanVal) → ScanEnd (List ScanVal) → Prop
  | .done r a, .done r' a' => r' = r ∧ Moved n f a a'
  | .stop r e a, .stop r' e' a' => r' = r ∧ e' = e ∧ Moved n f a a'
  | .undefined, .undefined => True
  | _, _ => False

theorem reference_moved {n : Nat} {f : Nat → Nat} (hf : ∀ j < n, ∀ k < n, f j = f k → j = k) (hlt : ∀ k < n, f k < n)
    {tys tys' : List ScanTy} (ht : Moved n f tys tys') (last tail : Str) (g : ScanHole → ScanHole) :
    ∀ (segs : List (Str × ScanHole)) (i : Nat) (s : Str) (vars vars' : List ScanVal), Moved n f vars vars' →
      (∀ (j : Nat) (x : Str × ScanHole), segs[j]? = some x → x.2.field.argument (i + j) < n ∧ (g x.2).sp = x.2.sp ∧
        (g x.2).field.argument (i + j) = f (x.2.field.argument (i + j))) →
      (scanReference tys last tail i segs s vars).MovedBy n f
        (scanReference tys' last tail i (segs.map fun x => (x.1, g x.2)) s vars') := by
  intro segs
  induction segs with
  | nil =>
    intro i s vars vars' hm _
    simp only [scanReference, List.map_nil]
    cases matchPieces (textPieces [] last) s with
    | undefined => trivial
    | done rest u => exact ⟨rfl, hm⟩
    | stop rest e u => exact ⟨rfl, rfl, hm⟩
  | cons y segs ih =>
    intro i s vars vars' hm hn
    obtain ⟨lit, h⟩ := y
    obtain ⟨h1, h2, h3⟩ := hn 0 _ rfl
    simp only [Nat.add_zero] at h1 h2 h3
    simp only [scanReference, List.map_cons]
    cases matchPieces (textPieces [] lit) s with
    | undefined => trivial
    | stop rest e u => exact ⟨rfl, rfl, hm⟩
    | done s1 u =>
      simp only [h3, h2]
      rw [ht.2.2 _ h1, hm.2.2 _ h1]
      have hfo : following last (segs.map fun x => (x.1, g x.2)) = following last segs := by cases segs <;> rfl
      have hne : decide (segs.map (fun x : Str × ScanHole => (x.1, g x.2)) ≠ [] ∨ tail ≠ []) = decide (segs ≠ [] ∨ tail ≠ []) := by
        simp
      rw [hfo, hne]
      cases tys[h.field.argument i]? with
      | none => cases vars[h.field.argument i]? <;> trivial
      | some ty =>
        cases vars[h.field.argument i]? with
        | none => trivial
        | some old =>
          simp only
          cases readField ty h.sp (following last segs) (decide (segs ≠ [] ∨ tail ≠ [])) old s1 with
          | undefined => trivial
          | stop rest e v => exact ⟨rfl, rfl, hm.set hf hlt h1 v⟩
          | done rest v =>
            refine ih (i + 1) rest _ _ (hm.set hf hlt h1 v) ?_
            intro j x hx
            have := hn (j + 1) x (by simpa using hx)
            rwa [show i + (j + 1) = i + 1 + j by omega] at this

end Emio
