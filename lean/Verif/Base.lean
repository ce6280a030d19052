/-
Common vocabulary of the model.

`include/emio/result.hpp` (the `err` enumeration, `result<T>`, `EMIO_TRY`, `EMIO_TRYV`) is modelled by the
three-way outcome `Run` and the monad `M`: `>>=` is `EMIO_TRY`, i.e. an error is returned to the caller at once,
with whatever changes were made to the state before.
-/
namespace Emio

/-- A `char` sequence.  A byte `b` is represented by the `Char` with code `b` (0..255). -/
abbrev Str := List Char

/-- `emio::err` (include/emio/result.hpp:41-48). -/
inductive Err
  | eof | invalidArgument | invalidData | outOfRange | invalidFormat
  deriving DecidableEq, Repr

/-- Outcomes that are no return of the function at all: undefined behaviour (out-of-bounds access, signed overflow,
`assume_value()` of an error, use after free), `std::terminate()`, and a loop that never ends. -/
inductive Bad
  | ub | terminate | diverge
  deriving DecidableEq, Repr

/-- Outcome of running a function that changes a state `σ` and returns `result<α>`. -/
inductive Run (σ α : Type)
  | ok (s : σ) (a : α)
  | err (s : σ) (e : Err)
  | bad (b : Bad)
  deriving DecidableEq, Repr

/-- A function with state `σ` returning `result<α>`. -/
def M (σ α : Type) : Type := σ → Run σ α

namespace M
variable {σ α β : Type}

/-- Return a value. -/
def pure (a : α) : M σ α := fun s => .ok s a

/-- `EMIO_TRY` (include/emio/result.hpp:18-34): go on with the value or return the error to the caller. -/
def bind (m : M σ α) (f : α → M σ β) : M σ β := fun s =>
  match m s with
  | .ok s' a => f a s'
  | .err s' e => .err s' e
  | .bad b => .bad b

/-- `return err::e;` -/
def throw (e : Err) : M σ α := fun s => .err s e

/-- Undefined behaviour and friends. -/
def bad (b : Bad) : M σ α := fun _ => .bad b

/-- Read the state. -/
def get : M σ σ := fun s => .ok s s

/-- Replace the state. -/
def set (s : σ) : M σ Unit := fun _ => .ok s ()

/-- Change the state. -/
def modify (f : σ → σ) : M σ Unit := fun s => .ok (f s) ()

instance : Monad (M σ) where
  pure := M.pure
  bind := M.bind

@[simp] theorem pure_run (a : α) (s : σ) : (Pure.pure a : M σ α) s = .ok s a := rfl
@[simp] theorem pure_run' (a : α) (s : σ) : (M.pure a : M σ α) s = .ok s a := rfl
@[simp] theorem throw_run (e : Err) (s : σ) : (M.throw e : M σ α) s = .err s e := rfl
@[simp] theorem bad_run (b : Bad) (s : σ) : (M.bad b : M σ α) s = .bad b := rfl
@[simp] theorem get_run (s : σ) : (M.get : M σ σ) s = .ok s s := rfl
@[simp] theorem set_run (s t : σ) : (M.set t : M σ Unit) s = .ok t () := rfl
@[simp] theorem modify_run (f : σ → σ) (s : σ) : (M.modify f : M σ Unit) s = .ok (f s) () := rfl

theorem bind_run (m : M σ α) (f : α → M σ β) (s : σ) :
    (m >>= f) s = match m s with
      | .ok s' a => f a s'
      | .err s' e => .err s' e
      | .bad b => .bad b := rfl

theorem bind_ok {m : M σ α} {f : α → M σ β} {s s' : σ} {a : α} (h : m s = .ok s' a) :
    (m >>= f) s = f a s' := by rw [bind_run, h]

theorem bind_err {m : M σ α} {f : α → M σ β} {s s' : σ} {e : Err} (h : m s = .err s' e) :
    (m >>= f) s = .err s' e := by rw [bind_run, h]

theorem bind_bad {m : M σ α} {f : α → M σ β} {s : σ} {b : Bad} (h : m s = .bad b) :
    (m >>= f) s = .bad b := by rw [bind_run, h]

theorem ite_run {c : Prop} [Decidable c] (m n : M σ α) (s : σ) :
    (if c then m else n) s = if c then m s else n s := by split <;> rfl

end M

namespace Run
variable {σ α : Type}

/-- The state left behind, if the function returned. -/
def state? : Run σ α → Option σ
  | .ok s _ => some s
  | .err s _ => some s
  | .bad _ => none

/-- The value returned, if the function succeeded. -/
def val? : Run σ α → Option α
  | .ok _ a => some a
  | _ => none

/-- The error returned, if any. -/
def err? : Run σ α → Option Err
  | .err _ e => some e
  | _ => none

end Run
end Emio
