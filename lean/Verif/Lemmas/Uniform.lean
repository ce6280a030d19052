import Verif.Lemmas.CacheFields
/-
What a formatter writes does not depend on what was written before.
-/
namespace Emio
open Spec

/-- The calls made before an outcome. -/
def Run.after {α : Type} (ops : List WOp) : Run (List WOp) α → Run (List WOp) α
  | .ok s a => .ok (ops ++ s) a
  | .err s e => .err (ops ++ s) e
  | .bad b => .bad b

/-- The calls are added to those before and do not depend on them. -/
def Uniform {α : Type} (m : Fmt α) : Prop := ∀ ops, m ops = Run.after ops (m [])

theorem uniform_pure {α : Type} (a : α) : Uniform (pure a : Fmt α) := fun ops => by simp [Run.after]
theorem uniform_throw {α : Type} (e : Err) : Uniform (M.throw e : Fmt α) := fun ops => by simp [Run.after]
theorem uniform_bad {α : Type} (b : Bad) : Uniform (M.bad b : Fmt α) := fun ops => by simp [Run.after]
theorem uniform_emit (op : WOp) : Uniform (emit op) := fun ops => by simp [emit, Run.after]

theorem uniform_liftPure {α : Type} (m : Pure' α) : Uniform (liftPure m) := by
  intro ops
  unfold liftPure
  cases m () <;> simp [Run.after]

theorem Uniform.bind {α β : Type} {m : Fmt α} {f : α → Fmt β} (hm : Uniform m) (hf : ∀ a, Uniform (f a)) :
    Uniform (m >>= f) := by
  intro ops
  rw [M.bind_run, M.bind_run, hm ops]
  cases m [] with
  | ok s a =>
    simp only [Run.after]
    rw [hf a (ops ++ s), hf a s]
    cases f a [] <;> simp [Run.after]
  | err s e => rfl
  | bad b => rfl

theorem uniform_ite {α : Type} {c : Prop} [Decidable c] {x y : Fmt α} (hx : Uniform x) (hy : Uniform y) :
    Uniform (if c then x else y) := by
  split
  · exact hx
  · exact hy

theorem uniform_paddingLeft (s : Specs) (w : Nat) : Uniform (writePaddingLeft s w) := by
  unfold writePaddingLeft
  refine uniform_ite (uniform_pure _) (uniform_ite (uniform_bad _) (uniform_ite (uniform_pure _) ?_))
  exact (uniform_emit _).bind fun _ => uniform_pure _

theorem uniform_paddingRight (s : Specs) : Uniform (writePaddingRight s) := by
  unfold writePaddingRight
  exact uniform_ite (uniform_pure _) (uniform_emit _)

theorem uniform_padded {d : Align} {s : Specs} {w : Nat} {func : Fmt Unit} (h : Uniform func) :
    Uniform (writePadded d s w func) := by
  unfold writePadded
  exact (uniform_paddingLeft _ _).bind fun _ => h.bind fun _ => uniform_paddingRight _

theorem uniform_intOptions (c : Char) : Uniform (makeWriteIntOptions c) := by
  unfold makeWriteIntOptions
  repeat' first | exact uniform_pure _ | exact uniform_throw _ | apply uniform_ite

theorem uniform_sign (s : Specs) (n : Bool) : Uniform (tryWriteSign s n) := by
  unfold tryWriteSign
  exact uniform_ite ((uniform_emit _).bind fun _ => uniform_pure _) (uniform_pure _)

theorem uniform_prefix (s : Specs) (p : Str) : Uniform (tryWritePrefix s p) := by
  unfold tryWritePrefix
  exact uniform_ite ((uniform_emit _).bind fun _ => uniform_pure _) (uniform_ite (uniform_pure _) (uniform_pure _))

theorem uniform_int (s : Specs) (t : IntTy) (n : Int) : Uniform (writeArgInt s t n) := by
  unfold writeArgInt
  refine uniform_ite (uniform_padded (uniform_emit _)) ((uniform_intOptions _).bind fun x => ?_)
  exact (uniform_sign _ _).bind fun _ => (uniform_prefix _ _).bind fun _ => uniform_padded (uniform_emit _)

theorem uniform_decimalExp (s : Specs) (fp : FpSpecs) (d : Str) (e : Int) (h : Bool) (c : Char) :
    Uniform (writeDecimalExp s fp d e h c) := by
  unfold writeDecimalExp
  exact uniform_padded ((uniform_liftPure _).bind fun _ => (uniform_liftPure _).bind fun _ => uniform_emit _)

theorem uniform_decimalFixed (s : Specs) (fp : FpSpecs) (d : Str) (e : Int) (h : Bool) (c : Char) :
    Uniform (writeDecimalFixed s fp d e h c) := by
  unfold writeDecimalFixed
  exact uniform_padded ((uniform_liftPure _).bind fun _ => uniform_emit _)

theorem uniform_double (s : Specs) (d : Decoded) : Uniform (formatAndWriteDecimal s d) := by
  unfold formatAndWriteDecimal
  refine uniform_ite ((uniform_sign _ _).bind fun _ => uniform_padded ?_) ((uniform_liftPure _).bind fun x => ?_)
  · have h : ∀ a b, Uniform (writeNonFinite a b) := fun a b => by
      unfold writeNonFinite
      exact uniform_ite (uniform_emit _) (uniform_emit _)
    exact uniform_ite ((uniform_emit _).bind fun _ => h _ _) (h _ _)
  · show Uniform (writeDecimalFp s _ _ x.1 x.2)
    unfold writeDecimalFp
    exact (uniform_sign _ _).bind fun _ => uniform_ite (uniform_decimalExp _ _ _ _ _ _) (uniform_decimalFixed _ _ _ _ _ _)

theorem uniform_write (s : Specs) (a : CoreArg) : Uniform (a.write s) := by
  cases a with
  | bool b =>
    show Uniform (writeArgBool s b)
    unfold writeArgBool
    exact uniform_ite (uniform_int _ _ _) (uniform_ite (uniform_padded (uniform_emit _)) (uniform_padded (uniform_emit _)))
  | char c =>
    show Uniform (writeArgChar s c)
    unfold writeArgChar
    exact uniform_ite (uniform_int _ _ _) (uniform_ite (uniform_padded (uniform_emit _)) (uniform_padded (uniform_emit _)))
  | int t n => exact uniform_int _ _ _
  | double bits => exact uniform_double _ _
  | pointer p => exact uniform_int { s with alternateForm := true, type := 'x' } u64 p
  | string str =>
    show Uniform (writeArgStr s str)
    unfold writeArgStr
    exact uniform_ite (uniform_padded (uniform_emit _)) (uniform_padded (uniform_emit _))

mutual
theorem uniform_format : ∀ (v : FVal) (f : Fmtr), Uniform (v.format f)
  | .core a, f => by
    cases f with
    | core t s => rw [FVal.format.eq_def]; exact uniform_write s a
    | _ => rw [FVal.format.eq_def]; exact uniform_bad _
  | .range vs, f => by
    cases f with
    | range o c sep f =>
      rw [FVal.format.eq_def]
      exact (uniform_emit _).bind fun _ => (uniform_formatRange sep f true vs).bind fun _ => uniform_emit _
    | _ => rw [FVal.format.eq_def]; exact uniform_bad _
  | .tuple vs, f => by
    cases f with
    | tuple o c sep fs =>
      rw [FVal.format.eq_def]
      exact (uniform_emit _).bind fun _ => (uniform_formatTuple sep true vs fs).bind fun _ => uniform_emit _
    | _ => rw [FVal.format.eq_def]; exact uniform_bad _
  | .none, f => by
    cases f with
    | optional f => rw [FVal.format.eq_def]; exact uniform_emit _
    | _ => rw [FVal.format.eq_def]; exact uniform_bad _
  | .some v, f => by
    cases f with
    | optional f =>
      rw [FVal.format.eq_def]
      exact (uniform_emit _).bind fun _ => (uniform_format v f).bind fun _ => uniform_emit _
    | _ => rw [FVal.format.eq_def]; exact uniform_bad _
  | .monostate, f => by
    cases f with
    | monostate => rw [FVal.format.eq_def]; exact uniform_emit _
    | _ => rw [FVal.format.eq_def]; exact uniform_bad _
  | .variant t v, f => by
    cases f with
    | variant =>
      have hgen : Uniform (fun ops : List WOp =>
          match t.fresh.parse (Reader.ofStr ['}']) with
          | .ok _ f => v.format f ops
          | .err _ e => .err ops e
          | .bad b => .bad b) := by
        cases hp : t.fresh.parse (Reader.ofStr ['}']) with
        | ok r f => exact uniform_format v f
        | err r e => exact uniform_throw e
        | bad b => exact uniform_bad b
      rw [FVal.format.eq_def]
      refine (uniform_emit _).bind fun _ => Uniform.bind ?_ fun _ => uniform_emit _
      cases v with
      | core a =>
        cases a with
        | char c => exact uniform_emit _
        | string s => exact uniform_emit _
        | _ => exact hgen
      | _ => exact hgen
    | _ => rw [FVal.format.eq_def]; exact uniform_bad _
  | .valueless, f => by
    cases f with
    | variant =>
      rw [FVal.format.eq_def]
      exact (uniform_emit _).bind fun _ => (uniform_emit _).bind fun _ => uniform_emit _
    | _ => rw [FVal.format.eq_def]; exact uniform_bad _

theorem uniform_formatRange : ∀ (sep : Str) (f : Fmtr) (first : Bool) (vs : List FVal),
    Uniform (FVal.formatRange sep f first vs)
  | sep, f, first, [] => by rw [FVal.formatRange.eq_def]; exact uniform_pure _
  | sep, f, first, v :: vs => by
    rw [FVal.formatRange.eq_def]
    have h := (uniform_format v f).bind fun _ => uniform_formatRange sep f false vs
    exact uniform_ite ((uniform_emit _).bind fun _ => h) h

theorem uniform_formatTuple : ∀ (sep : Str) (first : Bool) (vs : List FVal) (fs : List Fmtr),
    Uniform (FVal.formatTuple sep first vs fs)
  | sep, first, [], [] => by rw [FVal.formatTuple.eq_def]; exact uniform_pure _
  | sep, first, [], f :: fs => by rw [FVal.formatTuple.eq_def]; exact uniform_bad _
  | sep, first, v :: vs, [] => by rw [FVal.formatTuple.eq_def]; exact uniform_bad _
  | sep, first, v :: vs, f :: fs => by
    rw [FVal.formatTuple.eq_def]
    have h := (uniform_format v f).bind fun _ => uniform_formatTuple sep false vs fs
    exact uniform_ite ((uniform_emit _).bind fun _ => h) h
end

/-- A call that needs more than `c` characters in one piece is made. -/
def WideCall {α : Type} (m : Fmt α) (c : Nat) : Prop := ∀ ops ops' a, m ops = .ok ops' a → ∃ op ∈ ops', c < op.need

/-- Either all calls need no more than `c` characters in one piece, or one needs more. -/
theorem Uniform.emits_or {m : Fmt Unit} (h : Uniform m) {text : Str} {k : Nat} (he : Emits m text k) (c : Nat) :
    Emits m text c ∨ WideCall m c := by
  obtain ⟨new, h1, h2, h3, _⟩ := he []
  rw [List.nil_append] at h1
  by_cases hc : ∀ op ∈ new, op.need ≤ c
  · refine Or.inl fun ops => ⟨new, ?_, h2, h3, hc⟩
    rw [h ops, h1]
    rfl
  · right
    simp only [not_forall, Nat.not_le] at hc
    obtain ⟨op, ho, hw⟩ := hc
    intro ops ops' a hr
    rw [h ops, h1] at hr
    simp only [Run.after] at hr
    cases hr
    exact ⟨op, List.mem_append_right _ ho, hw⟩

end Emio
