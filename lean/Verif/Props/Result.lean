import Verif.Model.Result
/-
Property C66: a result is a value or an error.
-/
namespace Emio

/-- The result object stands for this value or this error. -/
def Res.Is {α : Type} (r : Res α) : Except Err α → Prop
  | .ok a => r = Res.ofValue a
  | .error e => r = Res.ofError (some e)

/-- The same for `result<void>`. -/
def ResVoid.Is (r : ResVoid) : Except Err Unit → Prop
  | .ok _ => r = ResVoid.success
  | .error e => r = ResVoid.ofError (some e)

/-- All observers agree on what the result is: the value, or an exception with the name of the error; the error, or an
exception `no error`; and the conversion to `result<void>` keeps success and error. -/
theorem C66_observers {α : Type} (r : Res α) (x : Except Err α) (h : r.Is x) :
    (r.hasValue = true ↔ ∃ a, x = .ok a) ∧ (r.hasError = true ↔ ∃ e, x = .error e) ∧
    (∀ a, x = .ok a → r.value = .returns a ∧ r.assumeValue = .returns a ∧ r.error = .throws "no error" ∧
      (∀ d, r.valueOr d = a) ∧ (ResVoid.ofRes r).Is (.ok ())) ∧
    (∀ e, x = .error e → r.value = .throws (Err.name (some e)) ∧ r.error = .returns (some e) ∧ r.assumeError = some e ∧
      (∀ d, r.valueOr d = d) ∧ (ResVoid.ofRes r).Is (.error e)) := by
  cases x with
  | ok a =>
    obtain rfl : r = _ := h
    refine ⟨by simp [Res.hasValue, Res.ofValue], by simp [Res.hasError, Res.hasValue, Res.ofValue], ?_, by simp⟩
    intro b hb
    cases hb
    exact ⟨rfl, rfl, rfl, fun _ => rfl, rfl⟩
  | error e =>
    obtain rfl : r = _ := h
    refine ⟨by simp [Res.hasValue, Res.ofError], by simp [Res.hasError, Res.hasValue, Res.ofError], by simp, ?_⟩
    intro e' he
    cases he
    exact ⟨rfl, rfl, rfl, fun _ => rfl, rfl⟩

/-- The value 0, which is no error, given as an error (only development builds refuse it): a result of it has no value, but
becomes a success when it is converted to `result<void>`, as does a `result<void>` made of it. -/
theorem C66_zero_error {α : Type} (r : Res α) (h : r = Res.ofError none) :
    r.hasValue = false ∧ r.hasError = true ∧ r.value = .throws "no error" ∧ r.error = .returns none ∧ (∀ d, r.valueOr d = d) ∧
    (ResVoid.ofRes r).Is (.ok ()) ∧ (ResVoid.ofError none).Is (.ok ()) := by
  subst h
  exact ⟨rfl, rfl, rfl, rfl, fun _ => rfl, rfl, rfl⟩

/-- The same for `result<void>`. -/
theorem C66_void_observers (r : ResVoid) (x : Except Err Unit) (h : r.Is x) :
    (r.hasValue = true ↔ x = .ok ()) ∧ (r.hasError = true ↔ ∃ e, x = .error e) ∧
    (x = .ok () → r.value = .returns () ∧ r.error = .throws "no error") ∧
    (∀ e, x = .error e → r.value = .throws (Err.name (some e)) ∧ r.error = .returns (some e) ∧ r.assumeError = some e) := by
  cases x with
  | ok a =>
    obtain rfl : r = _ := h
    refine ⟨by simp [ResVoid.hasValue, ResVoid.success], by simp [ResVoid.hasError, ResVoid.hasValue, ResVoid.success], ?_,
      by simp⟩
    intro _
    exact ⟨rfl, rfl⟩
  | error e =>
    obtain rfl : r = _ := h
    refine ⟨by simp [ResVoid.hasValue, ResVoid.ofError], by simp [ResVoid.hasError, ResVoid.hasValue, ResVoid.ofError],
      by simp, ?_⟩
    intro e' he
    cases he
    exact ⟨rfl, rfl, rfl⟩

/-- The names of the errors tell them apart. -/
theorem C66_names_are_distinct (e e' : Option Err) (h : Err.name e = Err.name e') : e = e' := by
  have key : ∀ e : Option Err, e ∈ [none, some .eof, some .invalidArgument, some .invalidData, some .outOfRange,
      some .invalidFormat] := by
    intro e
    rcases e with _ | e
    · simp
    · cases e <;> simp
  have all : ∀ e ∈ [none, some Err.eof, some .invalidArgument, some .invalidData, some .outOfRange, some .invalidFormat],
      ∀ e' ∈ [none, some Err.eof, some .invalidArgument, some .invalidData, some .outOfRange, some .invalidFormat],
      Err.name e = Err.name e' → e = e' := by decide
  exact all e (key e) e' (key e') h

/-- Two results are equal iff both are values that are equal or both are the same error; comparing has no undefined
behaviour and throws nothing. -/
theorem C66_equality {α β : Type} (eq : α → β → Bool) (l : Res α) (r : Res β) (x : Except Err α) (y : Except Err β)
    (hl : l.Is x) (hr : r.Is y) :
    l.eqRes eq r = .returns (match x, y with
      | .ok a, .ok b => eq a b
      | .error e, .error e' => decide (e = e')
      | _, _ => false) ∧
    (∀ b, l.eqValue eq b = .returns (match x with | .ok a => eq a b | .error _ => false)) ∧
    ∀ e, l.eqErr (some e) = .returns (match x with | .ok _ => false | .error e' => decide (e' = e)) := by
  cases x <;> cases y <;> obtain rfl : l = _ := hl <;> obtain rfl : r = _ := hr <;>
    simp [Res.eqRes, Res.eqValue, Res.eqErr, Res.hasValue, Res.hasError, Res.ofValue, Res.ofError, Res.assumeValue,
      Res.assumeError, Res.value, Res.error]

/-- The same for `result<void>`. -/
theorem C66_void_equality (l r : ResVoid) (x y : Except Err Unit) (hl : l.Is x) (hr : r.Is y) :
    (l.eqRes r = true ↔ x = y) ∧ ∀ e, ∃ b, l.eqErr (some e) = .returns b ∧ (b = true ↔ x = .error e) := by
  cases x <;> cases y <;> obtain rfl : l = _ := hl <;> obtain rfl : r = _ := hr <;>
    simp [ResVoid.eqRes, ResVoid.eqErr, ResVoid.hasValue, ResVoid.hasError, ResVoid.success, ResVoid.ofError,
      ResVoid.assumeError, ResVoid.error]

/-- Results of functions that change a state, as elsewhere in the model. -/
def Res.run {σ α : Type} : σ × Res α → Run σ α
  | (s, ⟨some a, _⟩) => .ok s a
  | (s, ⟨none, some e⟩) => .err s e
  | (_, ⟨none, none⟩) => .bad .ub

/-- `EMIO_TRY` goes on with the value or returns the error, together with the changes made so far.  (This justifies the
use of `M` in the other parts of the model.) -/
theorem C66_try {σ α β : Type} (first : σ → σ × Res α) (next : α → σ → σ × Res β) (s : σ)
    (h : ∃ x, (first s).2.Is x) :
    ∃ y, tryDo first next s = .returns y ∧
      Res.run y = M.bind (fun s => Res.run (first s)) (fun a s => Res.run (next a s)) s := by
  obtain ⟨x, hx⟩ := h
  unfold tryDo M.bind
  cases hf : first s with
  | mk s' r =>
    rw [hf] at hx
    cases x with
    | ok a =>
      obtain rfl : r = _ := hx
      exact ⟨_, rfl, by simp only [hf]; rfl⟩
    | error e =>
      obtain rfl : r = _ := hx
      exact ⟨_, rfl, by simp only [hf]; rfl⟩

/-- The state after steps that all succeed. -/
inductive Passes {σ α : Type} : List (σ → σ × Res α) → σ → σ → Prop
  | nil (s : σ) : Passes [] s s
  | cons {step : σ → σ × Res α} {steps : List (σ → σ × Res α)} {s s' s'' : σ} {a : α} (first : step s = (s', Res.ofValue a))
      (rest : Passes steps s' s'') : Passes (step :: steps) s s''

/-- A function made of steps under `EMIO_TRYV` runs all of them and succeeds, or runs them up to the first one that fails
and returns its error. -/
theorem C66_try_all {σ α : Type} (steps : List (σ → σ × Res α)) (h : ∀ step ∈ steps, ∀ s, ∃ x, (step s).2.Is x) (s : σ) :
    (∃ s', Passes steps s s' ∧ tryAll steps s = (s', ResVoid.success)) ∨
    ∃ pre step post s' s'' e, steps = pre ++ step :: post ∧ Passes pre s s' ∧ step s' = (s'', Res.ofError (some e)) ∧
      tryAll steps s = (s'', ResVoid.ofError (some e)) := by
  induction steps generalizing s with
  | nil => exact Or.inl ⟨s, .nil s, rfl⟩
  | cons step steps ih =>
    obtain ⟨x, hx⟩ := h step (by simp) s
    cases hf : step s with
    | mk s' r =>
      rw [hf] at hx
      cases x with
      | ok a =>
        obtain rfl : r = _ := hx
        have e : tryAll (step :: steps) s = tryAll steps s' := by
          rw [tryAll, hf]
          rfl
        rcases ih (fun st hs => h st (by simp [hs])) s' with ⟨s1, h1, h2⟩ | ⟨pre, st, post, s1, s2, er, h1, h2, h3, h4⟩
        · exact Or.inl ⟨s1, .cons hf h1, by rw [e, h2]⟩
        · exact Or.inr ⟨step :: pre, st, post, s1, s2, er, by rw [h1]; rfl, .cons hf h2, h3, by rw [e, h4]⟩
      | error er =>
        obtain rfl : r = _ := hx
        refine Or.inr ⟨[], step, steps, s, s', er, rfl, .nil s, hf, ?_⟩
        rw [tryAll, hf]
        rfl

/-- Three steps of which the second fails: the third is not run. -/
example : tryAll (σ := Nat) (α := Nat) [fun s => (s + 1, Res.ofValue s), fun s => (s + 10, Res.ofError (some .eof)),
    fun s => (s + 100, Res.ofValue s)] 0 = (11, ResVoid.ofError (some .eof)) := by decide

/-- `err{}` is no error: such a result would turn into a success, which is why `Res.Is` leaves it out. -/
example : ResVoid.ofRes (Res.ofError (α := Nat) none) = ResVoid.success := by decide

end Emio
