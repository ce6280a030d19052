import Verif.Model.ArgsStorage
/-
Specification for scanning into variables that are referred to by addresses.
-/
namespace Emio

/-- Assign the variables of a list, one after the other: which variable, and the value. -/
def assignVars (vars : List ScanVal) : List (Nat × ScanVal) → List ScanVal
  | [] => vars
  | (n, v) :: ws => assignVars (vars.set n v) ws

/-- Assign the variables at the addresses, one after the other. -/
def assignMem (addrs : List Nat) (mem : ScanMemory) : List (Nat × ScanVal) → ScanMemory
  | [] => mem
  | (n, v) :: ws => assignMem addrs (fun a => if addrs[n]? = some a then some v else mem a) ws

/-- The result with other variables. -/
def ScanIO.onMem (r : Run ScanIO Unit) (mem : ScanMemory) : Run MemIO Unit :=
  match r with
  | .ok io _ => .ok ⟨io.inp, mem⟩ ()
  | .err io e => .err ⟨io.inp, mem⟩ e
  | .bad b => .bad b

/-- The variables afterwards, unless the behaviour is undefined. -/
def ScanIO.varsAfter : Run ScanIO Unit → Option (List ScanVal)
  | .ok io _ => some io.vars
  | .err io _ => some io.vars
  | .bad _ => none

/-- The memory afterwards, unless the behaviour is undefined. -/
def MemIO.memAfter : Run MemIO Unit → Option ScanMemory
  | .ok io _ => some io.mem
  | .err io _ => some io.mem
  | .bad _ => none

end Emio
