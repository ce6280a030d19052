import Verif.Model.HeapVec

/-!
# The unit tests of the library, evaluated in the model: the vector behind `memory_buffer`

The checks of /repo/test/unit_test/detail/test_ct_vector.cpp with the results the tests expect.  These are no proofs of
properties: they show that the model computes what the authors of the library expect of the code.
-/

namespace Emio.Conformance.Vector

/-- Size, capacity and characters of a vector. -/
def seen (r : VecRun) (i : Nat) : Option (Nat × Nat × String) :=
  match r with
  | .ok s => (s.vars i).bind fun v => (v.read s.heap v.size).map fun d => (v.size, v.capacity, String.ofList d)
  | _ => none

/-- `std::fill(data + from, data + to, c)`. -/
def fill (i a b : Nat) (c : Char) : List VecOp := (List.range (b - a)).map fun k => .store i (a + k) c

/-- What vector 0 is like after the operations. -/
def after (n : Nat) (ops : List VecOp) : Option (Nat × Nat × String) := seen (VecState.empty.exec n ops) 0

/-- The vector of the compile-time section up to each check of its content (test_ct_vector.cpp:106-143). -/
def grow : List VecOp :=
  [.make 0, .reserve 0 1, .store 0 0 '1', .reserve 0 5] ++ fill 0 1 5 '\x00' ++ [.store 0 2 'x', .reserve 0 4, .reserve 0 5,
    .reserve 0 10] ++ fill 0 5 10 '\x00' ++ [.store 0 8 'y', .reserve 0 15] ++ fill 0 10 15 '\x00' ++ [.store 0 12 'z']

@[inherit_doc grow]
def regrow : List VecOp := grow ++ [.reserve 0 9, .reserve 0 15] ++ fill 0 10 15 'n'

/-- test_ct_vector.cpp:103-203, "compile-time". -/
example :
    after 1 [.make 0] = some (0, 1, "") ∧
    (after 1 [.make 0, .reserve 0 1]).map (fun r => (r.1, r.2.1)) = some (1, 1) ∧
    (after 1 [.make 0, .reserve 0 1, .reserve 0 5]).map (fun r => (r.1, r.2.1)) = some (5, 5) ∧
    (after 1 [.make 0, .reserve 0 1, .reserve 0 5, .reserve 0 4]).map (fun r => (r.1, r.2.1)) = some (4, 5) ∧
    after 1 grow = some (15, 15, "1\x00x\x00\x00\x00\x00\x00y\x00\x00\x00z\x00\x00") ∧
    after 1 (grow ++ [.reserve 0 9]) = some (9, 15, "1\x00x\x00\x00\x00\x00\x00y") ∧
    after 1 regrow = some (15, 15, "1\x00x\x00\x00\x00\x00\x00y\x00nnnnn") ∧
    after 1 (regrow ++ [.clear 0]) = some (0, 15, "") ∧
    (after 1 (regrow ++ [.clear 0, .reserve 0 1])).map (fun r => (r.1, r.2.1)) = some (1, 15) ∧
    after 1 (regrow ++ [.clear 0, .reserve 0 1, .reserve 0 15]) =
      some (15, 15, "1\x00x\x00\x00\x00\x00\x00y\x00nnnnn") ∧
    [2, 3, 4, 5].map (seen (VecState.empty.exec 1
        (regrow ++ [.copy 2 0, .make 3, .assignCopy 3 2, .move 4 3, .make 5, .assignMove 5 4]))) =
      [after 1 regrow, some (0, 1, ""), some (0, 1, ""), after 1 regrow] := by
  decide +kernel

/-- The vector of the runtime section at its checkpoints (test_ct_vector.cpp:226-310). -/
def checkpoints : List (List VecOp) :=
  let c1 := [.make 0, .reserve 0 5] ++ fill 0 0 5 '\x00' ++ [.store 0 2 'x']
  let c2 := c1 ++ [.reserve 0 4, .reserve 0 5, .reserve 0 10] ++ fill 0 5 10 '\x00' ++ [.store 0 8 'y']
  let c3 := c2 ++ [.reserve 0 15] ++ fill 0 10 15 'n' ++ [.store 0 12 'z']
  let c4 := c3 ++ [.reserve 0 9]
  let c5 := c4 ++ [.reserve 0 15]
  [[.make 0], c1, c2, c3, c4, c5, c5 ++ [.clear 0, .reserve 0 15]]

/-- `check_equality_of_vector(i, j)` (test_ct_vector.cpp:14-39) after the operations: the same size and characters, and not
more capacity in the second one.  The test also compares them after both have grown by 2 and by 123 characters; `#eval`
confirms the latter. -/
def alike (ops : List VecOp) (i j : Nat) (grown : Nat := 0) : Bool :=
  match VecState.empty.exec 5 ops with
  | .ok s =>
    match s.vars i with
    | some v =>
      let more (k : Nat) : List VecOp := .reserve k (v.size + grown) :: fill k v.size (v.size + grown) '1'
      let r := s.exec 5 (more i ++ more j)
      match seen r i, seen r j with
      | some a, some b => decide (a.1 = b.1) && decide (b.2.1 ≤ a.2.1) && decide (a.2.2 = b.2.2)
      | _, _ => false
    | none => false
  | _ => false

/-- `check_gang_of_5` (test_ct_vector.cpp:41-92). -/
def gangOf5 (grown : Nat) (ops : List VecOp) : Bool :=
  alike (ops ++ [.copy 2 0]) 0 2 grown &&
  alike (ops ++ [.make 2, .assignCopy 2 0]) 0 2 grown &&
  alike (ops ++ [.copy 1 0, .move 2 1]) 0 2 grown &&
  alike (ops ++ [.copy 1 0, .make 2, .assignMove 2 1]) 0 2 grown &&
  (let wild := [.copy 2 0, .move 3 2, .make 4, .assignCopy 4 3, .make 5, .assignMove 5 4, .copy 6 0, .assignCopy 6 5]
   alike (ops ++ wild) 0 5 grown && alike (ops ++ wild) 6 5 grown) &&
  alike (ops ++ [.copy 2 0, .assignCopy 2 2]) 0 2 grown &&
  alike (ops ++ [.copy 2 0, .assignMove 2 2]) 0 2 grown

/-- test_ct_vector.cpp:205-312, "runtime". -/
example :
    checkpoints.map (after 5) = [some (0, 5, ""), some (5, 5, "\x00\x00x\x00\x00"),
      some (10, 10, "\x00\x00x\x00\x00\x00\x00\x00y\x00"), some (15, 15, "\x00\x00x\x00\x00\x00\x00\x00y\x00nnznn"),
      some (9, 15, "\x00\x00x\x00\x00\x00\x00\x00y"), some (15, 15, "\x00\x00x\x00\x00\x00\x00\x00y\x00nnznn"),
      some (15, 15, "\x00\x00x\x00\x00\x00\x00\x00y\x00nnznn")] ∧
    checkpoints.all (gangOf5 2) = true := by
  decide +kernel

end Emio.Conformance.Vector
