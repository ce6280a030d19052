import Verif.Model.Buffer
/-
Model of the memory management of include/emio/detail/ct_vector.hpp, the only owner of dynamic memory in the library
(through `memory_buffer`, buffer.hpp:133-233): `new[]`, `delete[]` and accesses through `data_` on an explicit heap.
`Verif/Model/Buffer.lean` has the same vectors as values.  An allocation always succeeds (as there).
-/
namespace Emio

/-- The heap (detail/ct_vector.hpp:69, 90, 103, 112): the blocks `new Char[n]` has given, in the order of the allocations;
`none` for a block that was freed by `delete[]`. -/
abbrev Heap := List (Option Str)

/-- What `data_` points to (detail/ct_vector.hpp:144): the inline storage of the vector or a block of the heap. -/
inductive Ptr
  | inline
  | block (b : Nat)
  deriving DecidableEq, Repr

/-- `delete[] p` (detail/ct_vector.hpp:68-70, 89-91, 111-113), which is only executed for blocks of the heap.
`none`: undefined behaviour, the block is not a live one. -/
def Heap.release (h : Heap) : Ptr → Option Heap
  | .inline => some h
  | .block b =>
    match h[b]? with
    | some (some _) => some (h.set b none)
    | _ => none

/-- `ct_vector<char, StorageSize>` (detail/ct_vector.hpp:143-146). -/
structure HVec where
  storage : Str
  ptr : Ptr
  size : Nat
  capacity : Nat
  deriving DecidableEq, Repr

namespace HVec

/-- `ct_vector()` (detail/ct_vector.hpp:26-30, 143-146). -/
def new (n : Nat) : HVec := ⟨uninit n, .inline, 0, n⟩

/-- The characters `data_` points to (detail/ct_vector.hpp:144).  `none`: a dangling pointer. -/
def target (h : Heap) (v : HVec) : Option Str :=
  match v.ptr with
  | .inline => some v.storage
  | .block b => (h[b]?).join

/-- Reading the first `k` characters through `data_` (`copy_n`, detail/ct_vector.hpp:34, 43, 58, 77, 104).
`none`: undefined behaviour.  Nothing is accessed if `k` is 0. -/
def read (h : Heap) (v : HVec) (k : Nat) : Option Str :=
  if k = 0 then some []
  else match v.target h with
    | some d => if k ≤ d.length then some (d.take k) else none
    | none => none

/-- Writing characters through `data_`, from the position `i` on (`copy_n`, detail/ct_vector.hpp:34, 43, 58, 77, and
the users of `data()`).  `none`: undefined behaviour.  Nothing is accessed if there are no characters. -/
def write (h : Heap) (v : HVec) (i : Nat) (d : Str) : Option (Heap × HVec) :=
  if d = [] then some (h, v)
  else match v.ptr with
    | .inline => (overwrite v.storage i d).map fun m => (h, { v with storage := m })
    | .block b =>
      match h[b]? with
      | some (some m) => (overwrite m i d).map fun m => (h.set b (some m), v)
      | _ => none

/-- `reserve` (detail/ct_vector.hpp:94-116). -/
def reserve (h : Heap) (v : HVec) (k : Nat) : Option (Heap × HVec) :=
  if k < v.storage.length ∧ v.ptr = .inline then some (h, { v with size := k })
  else if v.capacity < k then
    match v.read h v.size with
    | none => none
    | some d =>
      match Heap.release (h ++ [some (d ++ uninit (k - v.size))]) v.ptr with
      | none => none
      | some h' => some (h', { v with ptr := .block h.length, size := k, capacity := k })
  else some (h, { v with size := k })

/-- What a moved-from vector is left as (detail/ct_vector.hpp:47-50, 81-84). -/
def movedFrom (n : Nat) (v : HVec) : HVec := { v with ptr := .inline, size := 0, capacity := n }

end HVec

/-- The vectors of a program, by their names, and the heap (detail/ct_vector.hpp:24-147). -/
structure VecState where
  heap : Heap
  vars : Nat → Option HVec

/-- What a program can do with vectors (detail/ct_vector.hpp:26-136). -/
inductive VecOp
  /-- `ct_vector i;` -/
  | make (i : Nat)
  /-- `ct_vector i{j};` -/
  | copy (i j : Nat)
  /-- `ct_vector i{std::move(j)};` -/
  | move (i j : Nat)
  /-- `i = j;` -/
  | assignCopy (i j : Nat)
  /-- `i = std::move(j);` -/
  | assignMove (i j : Nat)
  /-- `i.reserve(k);` -/
  | reserve (i k : Nat)
  /-- `i.data()[p] = c;` -/
  | store (i p : Nat) (c : Char)
  /-- Reading the characters from `i.data()` to `i.data() + i.size()`. -/
  | look (i : Nat)
  /-- `i.clear();` -/
  | clear (i : Nat)
  /-- The end of the lifetime of `i`. -/
  | destroy (i : Nat)
  deriving DecidableEq, Repr

/-- How a program ends: in a state, with undefined behaviour of the library, or it was no program: it used a vector that
does not live, gave a name twice, or wrote behind the size of a vector. -/
inductive VecRun
  | ok (s : VecState)
  | ub
  | ill

namespace VecState

/-- No vectors and no blocks: the start (detail/ct_vector.hpp:24-147). -/
def empty : VecState := ⟨[], fun _ => none⟩

/-- Give the name `i` to `v` (detail/ct_vector.hpp:24-147). -/
def put (s : VecState) (i : Nat) (v : Option HVec) : VecState :=
  { s with vars := fun j => if j = i then v else s.vars j }

/-- The copy constructor and copy assignment (detail/ct_vector.hpp:32-35, 53-60): `reserve` and `copy_n`. -/
def copyInto (s : VecState) (i : Nat) (v other : HVec) : VecRun :=
  match v.reserve s.heap other.size with
  | none => .ub
  | some (h, v) =>
    match other.read h other.size with
    | none => .ub
    | some d =>
      match v.write h 0 d with
      | none => .ub
      | some (h, v) => .ok (VecState.put ⟨h, s.vars⟩ i (some v))

/-- The move constructor and move assignment from "Transfer ownership" on (detail/ct_vector.hpp:38-50, 73-84). -/
def transfer (n : Nat) (s : VecState) (i : Nat) (v : HVec) (j : Nat) (other : HVec) : VecRun :=
  match other.ptr with
  | .block b =>
    .ok ((s.put i (some { v with ptr := .block b, capacity := other.capacity, size := other.size })).put j
      (some (other.movedFrom n)))
  | .inline =>
    match other.read s.heap other.size with
    | none => .ub
    | some d =>
      match v.write s.heap 0 d with
      | none => .ub
      | some (h, v) =>
        .ok ((VecState.put ⟨h, s.vars⟩ i (some { v with size := other.size })).put j (some (other.movedFrom n)))

/-- One operation (detail/ct_vector.hpp:26-136). -/
def step (n : Nat) (s : VecState) : VecOp → VecRun
  | .make i => if (s.vars i).isSome then .ill else .ok (s.put i (some (HVec.new n)))
  | .copy i j =>
    match s.vars i, s.vars j with
    | none, some other => s.copyInto i (HVec.new n) other
    | _, _ => .ill
  | .move i j =>
    match s.vars i, s.vars j with
    | none, some other => s.transfer n i (HVec.new n) j other
    | _, _ => .ill
  | .assignCopy i j =>
    match s.vars i, s.vars j with
    | some v, some other => if i = j then .ok s else s.copyInto i v other
    | _, _ => .ill
  | .assignMove i j =>
    match s.vars i, s.vars j with
    | some v, some other =>
      if i = j then .ok s
      else match s.heap.release v.ptr with                  -- ct_vector.hpp:68-70
        | none => .ub
        | some h => VecState.transfer n ⟨h, s.vars⟩ i v j other
    | _, _ => .ill
  | .reserve i k =>
    match s.vars i with
    | none => .ill
    | some v =>
      match v.reserve s.heap k with
      | none => .ub
      | some (h, v) => .ok (VecState.put ⟨h, s.vars⟩ i (some v))
  | .store i p c =>
    match s.vars i with
    | none => .ill
    | some v =>
      if p < v.size then
        match v.write s.heap p [c] with
        | none => .ub
        | some (h, v) => .ok (VecState.put ⟨h, s.vars⟩ i (some v))
      else .ill
  | .look i =>
    match s.vars i with
    | none => .ill
    | some v =>
      match v.read s.heap v.size with
      | none => .ub
      | some _ => .ok s
  | .clear i =>
    match s.vars i with
    | none => .ill
    | some v => .ok (s.put i (some { v with size := 0 }))
  | .destroy i =>
    match s.vars i with
    | none => .ill
    | some v =>
      match s.heap.release v.ptr with                       -- ct_vector.hpp:88-92
      | none => .ub
      | some h => .ok (VecState.put ⟨h, s.vars⟩ i none)

/-- A program of such operations (detail/ct_vector.hpp:26-136). -/
def exec (n : Nat) (s : VecState) : List VecOp → VecRun
  | [] => .ok s
  | op :: ops =>
    match s.step n op with
    | .ok s => s.exec n ops
    | r => r

end VecState
end Emio
