import Verif.Lemmas.SpecsTotal
import Verif.Lemmas.ParserForward
import Verif.Props.FormatSpecs
import Verif.Spec.Argument
import Verif.Lemmas.FloatText
/-
Arguments of core types.
-/
namespace Emio
open Reader Spec

theorem core_tame (a : CoreArg) : a.farg.Tame := by
  intro r hr
  have hv : a.farg.validate = a.ty.validate := rfl
  rw [hv]
  rcases safe_validate a.ty hr with ⟨r', e, h⟩ | ⟨r', u, h, hi⟩
  · exact Or.inl ⟨r', e, h⟩
  · right
    obtain ⟨s, h1, _, _⟩ := C27_formatter_parse_agrees_with_validate a r r' hr (by rw [hv]; exact h)
    obtain ⟨t, tail, wf, hrest, rfl, _⟩ := specs_backward hr h1
    refine ⟨t.text ++ ['}'], tail, by simp, ⟨hr, by simpa using hrest⟩, ?_⟩
    rw [h]
    simp

/-- Type `O` is accepted by the validation of integers, characters and truth values but cannot be written. -/
def OctalO (a : CoreArg) (s : Specs) : Prop :=
  s.type = 'O' ∧ match a with
    | .bool _ | .char _ | .int _ _ => True
    | _ => False

/-- The debug form of a character is padded as if it had three characters. -/
def LongDebugChar (a : CoreArg) (s : Specs) : Prop :=
  match a with
  | .char c => s.type = '?' ∧ (quoted '\'' [c]).length ≠ 3 ∧ 3 < s.width
  | _ => False

theorem intTypes {s : Specs} (hc : checkIntegralSpecs s = true) (hO : s.type ≠ 'O') :
    s.type = noChar ∨ s.type = 'd' ∨ s.type = 'x' ∨ s.type = 'X' ∨ s.type = 'b' ∨ s.type = 'B' ∨ s.type = 'o' ∨
      s.type = 'c' := by
  unfold checkIntegralSpecs at hc
  simp at hc
  tauto

theorem length_escape_ge (s : Str) : s.length ≤ (escape s).length := by
  induction s with
  | nil => simp
  | cons c cs ih =>
    simp only [escape, List.flatMap_cons, List.length_cons, List.length_append] at *
    have : 1 ≤ (escapeChar c).length := by
      unfold escapeChar
      repeat' split
      all_goals simp
    omega

theorem quoted_char_length (c : Char) : 3 ≤ (quoted '\'' [c]).length := by
  have := length_escape_ge [c]
  simp [quoted] at *
  omega

theorem writeArgInt_O (s : Specs) (hs : s.type = 'O') (t : IntTy) (n : Int) : Fails (writeArgInt s t n) 0 := by
  intro ops
  unfold writeArgInt
  rw [if_neg (by rw [hs]; decide)]
  have : makeWriteIntOptions s.type ops = .err ops .invalidFormat := by rw [hs]; rfl
  rw [M.bind_err this]
  exact ⟨[], .invalidFormat, by simp, rfl, by simp⟩

theorem core_octal (a : CoreArg) (s : Specs) (h : OctalO a s) : Fails (a.write s) 0 := by
  obtain ⟨hs, ha⟩ := h
  cases a with
  | bool b =>
    show Fails (writeArgBool s b) 0
    unfold writeArgBool
    rw [if_pos (by rw [hs]; decide)]
    exact writeArgInt_O s hs _ _
  | char c =>
    show Fails (writeArgChar s c) 0
    unfold writeArgChar
    rw [if_pos (by rw [hs]; decide)]
    exact writeArgInt_O s hs _ _
  | int t n => exact writeArgInt_O s hs _ _
  | _ => exact ha.elim

/-- In fixed notation, a zero of a floating-point number may be missing. -/
def FixedLosesZero (a : CoreArg) (s : Specs) : Prop :=
  match a with
  | .double bits => LosesZero s bits
  | _ => False

/-- No argument asks for a larger area than `k` characters at once; 67 are enough for all but floating-point numbers. -/
structure NeedsAtMost (k : Nat) (a : CoreArg) (s : Specs) : Prop where
  low : 67 ≤ k
  high : k < 2 ^ 31
  double : ∀ bits, a = .double bits → IsFinite bits → (finiteText s bits).length + 1 ≤ k

theorem needs_any (a : CoreArg) (s : Specs) (hok : s.Ok) (hc : a.ty.check s = true) : NeedsAtMost 1421 a s := by
  refine ⟨by decide, by decide, ?_⟩
  rintro bits rfl hf
  have := finiteText_length (floatSpecs hok hc) hf
  omega

/-- The calls produce the specified text. -/
theorem core_emits (a : CoreArg) (s : Specs) (hok : s.Ok) (ha : ValidArg a) (hc : a.ty.check s = true)
    (hO : ¬ OctalO a s) (hL : ¬ LongDebugChar a s) (hZ : ¬ FixedLosesZero a s) {k : Nat} (hk : NeedsAtMost k a s) :
    Emits (a.write s) (argText a s) k := by
  have hk67 := hk.low
  cases a with
  | bool b =>
    exact (writeArgBool_emits s hok b hc (fun h => hO ⟨h, trivial⟩)).mono hk67
  | char c =>
    by_cases hq : s.type = '?'
    · have h := (writeArgChar_debug_emits s hok c ha hq).mono (Nat.zero_le k)
      have e : charText s c = surround (if s.align = .none then .left else s.align) s.fill (fillCount s 3)
          (quoted '\'' [c]) := by
        unfold charText
        rw [if_pos hq]
        unfold padded
        by_cases h3 : (quoted '\'' [c]).length = 3
        · rw [h3]
        · have hw : ¬ 3 < s.width := fun h => hL ⟨hq, h3, h⟩
          have := quoted_char_length c
          have e1 : fillCount s (quoted '\'' [c]).length = 0 := by unfold fillCount; omega
          have e2 : fillCount s 3 = 0 := by unfold fillCount; omega
          rw [e1, e2]
      show Emits _ (charText s c) k
      rw [e]
      exact h
    · exact (writeArgChar_emits s hok c ha hc (fun h => hO ⟨h, trivial⟩) hq).mono hk67
  | int t n =>
    refine (writeArgInt_emits s hok t ha.1 n ha.2 (intTypes ?_ (fun h => hO ⟨h, trivial⟩))).mono hk67
    have : (checkIntegralSpecs s && (t.signed || checkUnsignedSpecs s)) = true := hc
    simp at this
    exact this.1
  | double bits =>
    have := float_emits hok hc ha (k := k) (by omega) (hk.double bits rfl) hk.high
    rw [actual_eq hZ] at this
    exact this
  | pointer addr =>
    exact (writeArgPtr_emits s hok addr ha hc).mono hk67
  | string str =>
    refine (writeArgStr_emits s hok str ha.1 ha.2 ?_).mono (Nat.zero_le k)
    have := length_escape_ge str
    have h2 := ha.2
    simp [quoted] at h2
    omega

/-- All arguments are written. -/
theorem core_emits_some (a : CoreArg) (s : Specs) (hok : s.Ok) (ha : ValidArg a) (hc : a.ty.check s = true)
    (hO : ¬ OctalO a s) {k : Nat} (hk : NeedsAtMost k a s) : ∃ text, Emits (a.write s) text k := by
  by_cases hL : LongDebugChar a s
  · cases a with
    | char c => exact ⟨_, (writeArgChar_debug_emits s hok c ha hL.1).mono (Nat.zero_le k)⟩
    | _ => exact hL.elim
  · by_cases hZ : FixedLosesZero a s
    · cases a with
      | double bits =>
        exact ⟨_, float_emits hok hc ha (k := k) (by have := hk.low; omega) (hk.double bits rfl) hk.high⟩
      | _ => exact hZ.elim
    · exact ⟨_, core_emits a s hok ha hc hO hL hZ hk⟩

theorem core_sound (a : CoreArg) (src : Str) (ha : ValidArg a) {k : Nat}
    (hk : ∀ r r' s, r.src = src → r.Inv → validateFormatSpecs {} r = .ok r' s → a.ty.check s = true → NeedsAtMost k a s) :
    a.farg.Sound src k ('O' ∈ src) := by
  intro r r' hsrc hr hv
  obtain ⟨s, h1, h2, h3⟩ := C27_formatter_parse_agrees_with_validate a r r' hr hv
  refine ⟨_, h3, ?_⟩
  by_cases hO : OctalO a s
  · left
    refine ⟨?_, fun ops => ?_⟩
    · rcases specs_type hr h1 with h | h
      · rw [hO.1] at h; exact absurd h (by decide)
      · rw [hO.1, hsrc] at h; exact h
    · obtain ⟨new, e, g1, g2, g3⟩ := core_octal a s hO ops
      exact ⟨new, e, g1, g2, fun op ho => ⟨(g3 op ho).1, by have := (g3 op ho).2; omega⟩⟩
  · right
    exact core_emits_some a s (specs_ok hr h1) ha h2 hO (hk r r' s hsrc hr h1 h2)

/-- A specification of the grammar that passes the check of the type is read. -/
theorem core_reads (a : CoreArg) (t : SpecText) (wf : t.WellFormed) (fits : t.Fits) (hc : a.ty.check t.meaning = true)
    {text : Str} {k : Nat} (he : Emits (a.write t.meaning) text k) : a.farg.Reads (t.text ++ ['}']) text k := by
  intro r tail hat
  have hrest : r.rest = t.text ++ '}' :: tail := by simpa using hat.2
  have h1 := C28_type_check a.ty t wf fits r hat.1 tail hrest
  rw [if_pos hc] at h1
  have h2 := (C28_grammar_is_accepted t wf fits r hat.1 tail hrest).2
  have hl : (t.text ++ ['}']).length = t.text.length + 1 := by simp
  rw [hl]
  refine ⟨h1, _, ?_, he⟩
  show (do let s ← parseFormatSpecs {}; return a.write s : M Reader (Fmt Unit)) r = _
  rw [M.bind_ok h2]
  rfl

end Emio
