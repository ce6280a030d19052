import Verif.Lemmas.ScanReferences
/-
C75: scanning into variables that are stored as references, some of which may be the same variable.
-/
namespace Emio

/-- Scanning into variables at addresses, which need not be different, does what scanning into separate variables does: the
same result, the same rest of the input and the same assignments in the same order, each at the address of the variable. -/
theorem C75_references (str : Str) (refs : List (Nat × ScanTy)) (inp : Reader) (mem : ScanMemory) (vars : List ScanVal)
    (number : vars.length = refs.length) (exist : ∀ r ∈ refs, mem r.1 ≠ none) :
    ∃ ws : List (Nat × ScanVal), (∀ w ∈ ws, w.1 < refs.length) ∧
      scanFromMem str refs ⟨inp, mem⟩ =
        ScanIO.onMem (scanFrom str (refs.map (·.2)) ⟨inp, vars⟩) (assignMem (refs.map (·.1)) mem ws) ∧
      ∀ vars', ScanIO.varsAfter (scanFrom str (refs.map (·.2)) ⟨inp, vars⟩) = some vars' → vars' = assignVars vars ws := by
  have hmap : (refs.map fun r => r.2.farg) = (refs.map (·.2)).map ScanTy.farg := by rw [List.map_map]; rfl
  unfold scanFromMem scanFrom
  rw [hmap]
  cases VStr.make str ((refs.map (·.2)).map ScanTy.farg) with
  | bad b => exact ⟨[], by simp, rfl, by simp [ScanIO.varsAfter]⟩
  | err u e => exact ⟨[], by simp, rfl, by simp [ScanIO.varsAfter, assignVars]⟩
  | ok u vs =>
    simp only
    unfold vscanFromMem vscanFrom
    cases vs.str with
    | none => exact ⟨[], by simp, rfl, by simp [ScanIO.varsAfter, assignVars]⟩
    | some s =>
      simp only
      by_cases hp : vs.plain = true
      · rw [if_pos hp, if_pos hp]
        refine ⟨[], by simp, ?_, ?_⟩
        · cases Reader.readIfMatchStr s inp <;> rfl
        · cases Reader.readIfMatchStr s inp <;> simp [ScanIO.varsAfter, assignVars]
      · rw [if_neg hp, if_neg hp]
        obtain ⟨ws, g1, g2⟩ := loop_onMem refs (s.length + 1) ⟨Reader.ofStr s, none, 0⟩ inp vars mem number exist
        refine ⟨ws, by simpa using g1, ?_⟩
        rcases g2 with ⟨p, i, h1, h2⟩ | ⟨p, i, e, h1, h2⟩ | ⟨b, h1, h2⟩
        · rw [h1, h2]
          exact ⟨rfl, by simp [ScanIO.varsAfter]⟩
        · rw [h1, h2]
          exact ⟨rfl, by simp [ScanIO.varsAfter]⟩
        · rw [h1, h2]
          exact ⟨rfl, by simp [ScanIO.varsAfter]⟩

theorem assignMem_frame (addrs : List Nat) : ∀ (ws : List (Nat × ScanVal)) (mem : ScanMemory) (a : Nat), a ∉ addrs →
    assignMem addrs mem ws a = mem a := by
  intro ws
  induction ws with
  | nil => intros; rfl
  | cons w ws ih =>
    intro mem a ha
    rw [assignMem, ih _ _ ha, if_neg (fun h => ha (List.mem_of_getElem? h))]

theorem assign_distinct (addrs : List Nat) (hnd : addrs.Nodup) : ∀ (ws : List (Nat × ScanVal)) (mem : ScanMemory)
    (vars : List ScanVal), vars.length = addrs.length → (∀ (i a : Nat), addrs[i]? = some a → mem a = vars[i]?) →
    ∀ (i a : Nat), addrs[i]? = some a → assignMem addrs mem ws a = (assignVars vars ws)[i]? := by
  intro ws
  induction ws with
  | nil => intro mem vars _ h; exact h
  | cons w ws ih =>
    intro mem vars hl h
    refine ih _ (vars.set w.1 w.2) (by simpa using hl) ?_
    intro i a hi
    have hlt : i < addrs.length := (List.getElem?_eq_some_iff.1 hi).1
    by_cases he : addrs[w.1]? = some a
    · have : w.1 = i := by
        refine (List.getElem?_inj hlt hnd).1 ?_ |>.symm
        rw [hi, he]
      subst this
      rw [if_pos he, List.getElem?_set_self (by omega)]
    · rw [if_neg he, List.getElem?_set_ne]
      · exact h i a hi
      · rintro rfl
        exact he hi

/-- Nothing else is assigned, whatever happens. -/
theorem C75_frame (str : Str) (refs : List (Nat × ScanTy)) (inp : Reader) (mem mem' : ScanMemory)
    (exist : ∀ r ∈ refs, mem r.1 ≠ none) (after : MemIO.memAfter (scanFromMem str refs ⟨inp, mem⟩) = some mem')
    (addr : Nat) (other : addr ∉ refs.map (·.1)) : mem' addr = mem addr := by
  obtain ⟨ws, _, h, _⟩ := C75_references str refs inp mem (refs.map fun _ => .int 0) (by simp) exist
  rw [h] at after
  have : mem' = assignMem (refs.map (·.1)) mem ws := by
    revert after
    generalize scanFrom str _ _ = x
    cases x <;> simp [ScanIO.onMem, MemIO.memAfter, eq_comm]
  rw [this, assignMem_frame _ _ _ _ other]

/-- Different variables: they get what separate variables get. -/
theorem C75_distinct (str : Str) (refs : List (Nat × ScanTy)) (inp : Reader) (mem : ScanMemory) (vars : List ScanVal)
    (number : vars.length = refs.length) (holds : ∀ (i : Nat) (r : Nat × ScanTy), refs[i]? = some r → mem r.1 = vars[i]?)
    (distinct : (refs.map (·.1)).Nodup) :
    ∃ mem', scanFromMem str refs ⟨inp, mem⟩ = ScanIO.onMem (scanFrom str (refs.map (·.2)) ⟨inp, vars⟩) mem' ∧
      ∀ vars', ScanIO.varsAfter (scanFrom str (refs.map (·.2)) ⟨inp, vars⟩) = some vars' →
        (∀ (i : Nat) (r : Nat × ScanTy), refs[i]? = some r → mem' r.1 = vars'[i]?) ∧
        ∀ addr, addr ∉ refs.map (·.1) → mem' addr = mem addr := by
  obtain ⟨ws, _, h1, h2⟩ := C75_references str refs inp mem vars number (by
    intro r hr
    obtain ⟨i, hi⟩ := List.getElem?_of_mem hr
    have hlt := (List.getElem?_eq_some_iff.1 hi).1
    rw [holds i r hi, List.getElem?_eq_getElem (by omega)]
    simp)
  refine ⟨_, h1, fun vars' hv => ⟨?_, fun addr ha => assignMem_frame _ _ _ _ ha⟩⟩
  rw [h2 vars' hv]
  intro i r hi
  refine assign_distinct _ distinct ws mem vars (by simpa using number) ?_ i r.1 (by simp [hi])
  intro i a ha
  rw [List.getElem?_map] at ha
  cases hr : refs[i]? with
  | none => rw [hr] at ha; simp at ha
  | some r =>
    rw [hr] at ha
    simp only [Option.map_some, Option.some.injEq] at ha
    rw [← ha]
    exact holds i r hr

/-- Variables that are gone: either the behaviour is undefined, or everything is as with separate variables and only variables
that are there are assigned. -/
theorem C75_gone (str : Str) (refs : List (Nat × ScanTy)) (inp : Reader) (mem : ScanMemory) (vars : List ScanVal)
    (number : vars.length = refs.length) :
    scanFromMem str refs ⟨inp, mem⟩ = .bad .ub ∨
    ∃ ws : List (Nat × ScanVal), (∀ w ∈ ws, ∃ r, refs[w.1]? = some r ∧ mem r.1 ≠ none) ∧
      scanFromMem str refs ⟨inp, mem⟩ =
        ScanIO.onMem (scanFrom str (refs.map (·.2)) ⟨inp, vars⟩) (assignMem (refs.map (·.1)) mem ws) ∧
      ∀ vars', ScanIO.varsAfter (scanFrom str (refs.map (·.2)) ⟨inp, vars⟩) = some vars' → vars' = assignVars vars ws := by
  have hmap : (refs.map fun r => r.2.farg) = (refs.map (·.2)).map ScanTy.farg := by rw [List.map_map]; rfl
  unfold scanFromMem scanFrom
  rw [hmap]
  cases VStr.make str ((refs.map (·.2)).map ScanTy.farg) with
  | bad b => exact Or.inr ⟨[], by simp, rfl, by simp [ScanIO.varsAfter]⟩
  | err u e => exact Or.inr ⟨[], by simp, rfl, by simp [ScanIO.varsAfter, assignVars]⟩
  | ok u vs =>
    simp only
    unfold vscanFromMem vscanFrom
    cases vs.str with
    | none => exact Or.inr ⟨[], by simp, rfl, by simp [ScanIO.varsAfter, assignVars]⟩
    | some s =>
      simp only
      by_cases hp : vs.plain = true
      · rw [if_pos hp, if_pos hp]
        refine Or.inr ⟨[], by simp, ?_, ?_⟩
        · cases Reader.readIfMatchStr s inp <;> rfl
        · cases Reader.readIfMatchStr s inp <;> simp [ScanIO.varsAfter, assignVars]
      · rw [if_neg hp, if_neg hp]
        rcases loop_onMem_any refs (s.length + 1) ⟨Reader.ofStr s, none, 0⟩ inp vars mem number with g0 | ⟨ws, g1, g2⟩
        · left
          rw [g0]
        refine Or.inr ⟨ws, g1, ?_⟩
        rcases g2 with ⟨p, i, h1, h2⟩ | ⟨p, i, e, h1, h2⟩ | ⟨b, h1, h2⟩
        · rw [h1, h2]
          exact ⟨rfl, by simp [ScanIO.varsAfter]⟩
        · rw [h1, h2]
          exact ⟨rfl, by simp [ScanIO.varsAfter]⟩
        · rw [h1, h2]
          exact ⟨rfl, by simp [ScanIO.varsAfter]⟩

theorem assignVars_frame : ∀ (ws : List (Nat × ScanVal)) (vars : List ScanVal) (i : Nat), (∀ w ∈ ws, w.1 ≠ i) →
    (assignVars vars ws)[i]? = vars[i]? := by
  intro ws
  induction ws with
  | nil => intros; rfl
  | cons w ws ih =>
    intro vars i h
    rw [assignVars, ih _ _ fun x hx => h x (List.mem_cons_of_mem _ hx), List.getElem?_set_ne (h w (by simp))]

/-- So a scan that would change a variable that is gone is undefined. -/
theorem C75_gone_is_undefined (str : Str) (refs : List (Nat × ScanTy)) (inp : Reader) (mem : ScanMemory)
    (vars vars' : List ScanVal) (number : vars.length = refs.length)
    (h : ScanIO.varsAfter (scanFrom str (refs.map (·.2)) ⟨inp, vars⟩) = some vars') (i : Nat) (r : Nat × ScanTy)
    (hr : refs[i]? = some r) (gone : mem r.1 = none) (changed : vars'[i]? ≠ vars[i]?) :
    scanFromMem str refs ⟨inp, mem⟩ = .bad .ub := by
  rcases C75_gone str refs inp mem vars number with h0 | ⟨ws, h1, _, h3⟩
  · exact h0
  · refine absurd ?_ changed
    rw [h3 vars' h]
    refine assignVars_frame ws vars i fun w hw he => ?_
    obtain ⟨r', hr', hm⟩ := h1 w hw
    rw [he, hr] at hr'
    cases hr'
    exact hm gone

/-- Three variables. -/
private def memory : ScanMemory := fun addr => [.int 7, .str [], .char 'c'][addr]?

/-- The hypotheses are met, also if a variable is given twice. -/
example : ∀ r ∈ [(0, ScanTy.int i32), (0, ScanTy.int i32)], memory r.1 ≠ none := by decide
example : ([(2, ScanTy.char), (0, ScanTy.int i32)].map (·.1)).Nodup ∧
    ∀ (i : Nat) (r : Nat × ScanTy), [(2, ScanTy.char), (0, ScanTy.int i32)][i]? = some r →
      memory r.1 = [ScanVal.char 'c', ScanVal.int 7][i]? := by
  refine ⟨by decide, ?_⟩
  rintro (_ | _ | i) r h
  · cases h; rfl
  · cases h; rfl
  · simp at h

/-- The hypotheses are met: the second variable would be set to 2, and there is no variable at 9. -/
example : ScanIO.varsAfter (scanFrom "{},{}".toList [.int i32, .int i32] ⟨.ofStr "1,2".toList, [.int 7, .int 7]⟩) =
    some [.int 1, .int 2] ∧ memory 9 = none ∧
    scanFromMem "{},{}".toList [(0, .int i32), (9, .int i32)] ⟨.ofStr "1,2".toList, memory⟩ = .bad .ub := by
  have h1 : ScanIO.varsAfter (scanFrom "{},{}".toList [.int i32, .int i32] ⟨.ofStr "1,2".toList, [.int 7, .int 7]⟩) =
    some [.int 1, .int 2] := by decide +kernel
  exact ⟨h1, rfl, C75_gone_is_undefined _ [(0, .int i32), (9, .int i32)] _ memory _ _ rfl h1 1 _ rfl rfl (by decide)⟩

/-- `scan("1,2", "{},{}", i, i)`: the last assignment counts. -/
example : (MemIO.memAfter (scanFromMem "{},{}".toList [(0, .int i32), (0, .int i32)] ⟨.ofStr "1,2".toList, memory⟩)).map
    (fun mem => [mem 0, mem 1, mem 2]) = some [some (.int 2), some (.str []), some (.char 'c')] := by decide +kernel
/-- `scan("1,x", "{},{}", i, i)`: an error, after the first assignment. -/
example : (MemIO.memAfter (scanFromMem "{},{}".toList [(0, .int i32), (0, .int i32)] ⟨.ofStr "1,x".toList, memory⟩)).map
    (fun mem => [mem 0, mem 1, mem 2]) = some [some (.int 1), some (.str []), some (.char 'c')] := by decide +kernel

end Emio
