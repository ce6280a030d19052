import Verif.Model.HeapVec
/-
Specification for C103: who owns the memory of the vectors of a program, and what the vectors are as values.
-/
namespace Emio.Spec

/-- The block was allocated and not yet freed. -/
def Live (h : Heap) (b : Nat) : Prop := ∃ d, h[b]? = some (some d)

/-- The vector with the name `i` lives and points to the block. -/
def Holds (s : VecState) (i b : Nat) : Prop := ∃ v, s.vars i = some v ∧ v.ptr = .block b

/-- Nothing is lost and nothing is shared: each block that lives belongs to exactly one vector, and vectors have no other
blocks. -/
def Tidy (s : VecState) : Prop :=
  (∀ b, Live s.heap b ↔ ∃ i, Holds s i b) ∧ ∀ b i j, Holds s i b → Holds s j b → i = j

/-- The vectors of a program as values, by their names. -/
abbrev Values := Nat → Option CtVec

/-- How a program on values ends. -/
inductive ValRun
  | ok (vars : Values)
  | ub
  | ill

/-- One vector gets a new value, or is gone. -/
def Values.put (s : Values) (i : Nat) (v : Option CtVec) : Values := fun j => if j = i then v else s j

/-- The end of an operation on values. -/
def ValRun.of : Option Values → ValRun
  | some s => .ok s
  | none => .ub

/-- One operation on values: with the vectors of `Verif/Model/Buffer.lean`, which the proofs about `memory_buffer` use.  The
program must be one: vectors get names that are not in use, only vectors that live are used, and characters are only
written up to the size. -/
def valStep (n : Nat) (s : Values) : VecOp → ValRun
  | .make i => if (s i).isSome then .ill else .ok (s.put i (some (CtVec.new n)))
  | .copy i j =>
    match s i, s j with
    | none, some other => .of (other.copy.map fun v => s.put i (some v))
    | _, _ => .ill
  | .move i j =>
    match s i, s j with
    | none, some other => .of (other.move.map fun v => (s.put i (some v)).put j (some other.movedFrom))
    | _, _ => .ill
  | .assignCopy i j =>
    match s i, s j with
    | some v, some other => if i = j then .ok s else .of ((v.assignCopy other).map fun v => s.put i (some v))
    | _, _ => .ill
  | .assignMove i j =>
    match s i, s j with
    | some v, some other =>
      if i = j then .ok s
      else .of ((v.assignMove other).map fun v => (s.put i (some v)).put j (some other.movedFrom))
    | _, _ => .ill
  | .reserve i k =>
    match s i with
    | none => .ill
    | some v => .of ((v.reserve k).map fun v => s.put i (some v))
  | .store i p c =>
    match s i with
    | none => .ill
    | some v => if p < v.size then .of ((overwrite v.data p [c]).map fun d => s.put i (some (v.setData d))) else .ill
  | .look i => if (s i).isSome then .ok s else .ill
  | .clear i =>
    match s i with
    | none => .ill
    | some v => .ok (s.put i (some v.clear))
  | .destroy i => if (s i).isSome then .ok (s.put i none) else .ill

/-- A program on values. -/
def valExec (n : Nat) (s : Values) : List VecOp → ValRun
  | [] => .ok s
  | op :: ops =>
    match valStep n s op with
    | .ok s => valExec n s ops
    | r => r

/-- The vector as a value: what its pointer points to instead of the pointer. -/
def value (h : Heap) (v : HVec) : Option CtVec :=
  match v.ptr with
  | .inline => some ⟨v.storage, none, v.size⟩
  | .block b => (h[b]?).join.map fun d => ⟨v.storage, some d, v.size⟩

/-- All vectors as values. -/
def values (s : VecState) : Values := fun i => (s.vars i).bind (value s.heap)

/-- How a program ends, on values. -/
def runValues : VecRun → ValRun
  | .ok s => .ok (values s)
  | .ub => .ub
  | .ill => .ill

/-- No vector that has outgrown its inline storage of `n` characters is move-assigned from another one that has not. -/
def Careful (n : Nat) (ops : List VecOp) : Prop :=
  ∀ before i j after, ops = before ++ .assignMove i j :: after → ∀ s v other, VecState.empty.exec n before = .ok s →
    s.vars i = some v → s.vars j = some other → i = j ∨ v.capacity ≤ n ∨ n < other.capacity

end Emio.Spec
