import Verif.Lemmas.UserBuffer
import Verif.Props.AllArguments
import Verif.Props.Format
/-
C99: buffers written by a user.
-/
namespace Emio
open BufferImpl Spec

section
variable {S : Type} {f : Override S} {earlier : Str → S → Str} {Good : Area → Str → S → Prop}

theorem UserBuf.accepts_all (K : KeepsContract f earlier Good) (hG : ∀ c, GrantsUpTo f c Good) :
    Accepts (UserBuf.lawful K false) none none := by
  intro s t n h hr
  obtain ⟨s', a, h1, h2⟩ := UserBuf.accepts K (hG n) s t n h hr
  exact ⟨s', a, h1, fun _ => h2 (Nat.le_refl n)⟩

/-- C99: `write_str` to a buffer of a user: the buffer receives the string, or a beginning of it and end-of-file. -/
theorem C99_write_str (K : KeepsContract f earlier Good) (b : UserBuf f) (h : b.InOrder Good) (sv : Str) :
    (∃ b', writeStr sv b = .ok b' () ∧ b'.InOrder Good ∧ b'.received earlier = b.received earlier ++ sv) ∨
    ∃ b' p, writeStr sv b = .err b' .eof ∧ p <+: sv ∧ b'.InOrder Good ∧ b'.received earlier = b.received earlier ++ p := by
  have hw := writeStr_wrote (UserBuf.lawful K b.base.fixed) sv (s := b) (t := b.received earlier) ⟨rfl, h, rfl⟩
  revert hw
  cases hx : writeStr sv b with
  | ok b' u => exact fun hw => Or.inl ⟨b', rfl, hw.2.1, hw.2.2⟩
  | err b' e =>
    rintro ⟨rfl, p, hp, _, hf⟩
    exact Or.inr ⟨b', p, rfl, hp, hf.2.1, hf.2.2⟩
  | bad e => exact False.elim

/-- C99: `format_to` a buffer of a user, with arguments of every kind: the buffer receives the text `format` gives, or a
beginning of it and end-of-file. -/
theorem C99_every_argument (K : KeepsContract f earlier Good) (b : UserBuf f) (h : b.InOrder Good) (str : Str)
    (args : List Passed) (ha : ∀ a ∈ args, a.Proper) (text : Str)
    (hf : formatStr str (args.map Passed.farg) = .ok () text) :
    (∃ b', formatTo str (args.map Passed.farg) b = .ok b' () ∧ b'.InOrder Good ∧
      b'.received earlier = b.received earlier ++ text) ∨
    ∃ b' p, formatTo str (args.map Passed.farg) b = .err b' .eof ∧ p <+: text ∧ b'.InOrder Good ∧
      b'.received earlier = b.received earlier ++ p := by
  rcases settles str args ha with ⟨bd, hb⟩ | ⟨text', fail, hs⟩
  · rw [hb.format] at hf
    cases hf
  · have hd := hs.delivers.format
    rw [hf] at hd
    cases fail with
    | some e => cases hd
    | none =>
      injection hd with _ hd
      subst hd
      rcases hs.wrote (UserBuf.lawful K b.base.fixed) (s := b) (t := b.received earlier) ⟨rfl, h, rfl⟩ with
        ⟨b', h1, _, h2⟩ | ⟨b', e, h1, he, h2⟩ | ⟨b', p, h1, hp, h2⟩
      · exact Or.inl ⟨b', h1, h2.2.1, h2.2.2⟩
      · cases he
      · exact Or.inr ⟨b', p, h1, hp, h2.2.1, h2.2.2⟩

/-- C99: if the buffer grants every request in full, it receives the whole text. -/
theorem C99_every_argument_granted (K : KeepsContract f earlier Good) (hG : ∀ n, GrantsUpTo f n Good) (b : UserBuf f)
    (h : b.InOrder Good) (hx : b.base.fixed = false) (str : Str) (args : List Passed) (ha : ∀ a ∈ args, a.Proper) (text : Str)
    (hf : formatStr str (args.map Passed.farg) = .ok () text) :
    ∃ b', formatTo str (args.map Passed.farg) b = .ok b' () ∧ b'.InOrder Good ∧
      b'.received earlier = b.received earlier ++ text := by
  rcases settles str args ha with ⟨bd, hb⟩ | ⟨text', fail, hs⟩
  · rw [hb.format] at hf
    cases hf
  · have hd := hs.delivers.format
    rw [hf] at hd
    cases fail with
    | some e => cases hd
    | none =>
      injection hd with _ hd
      subst hd
      obtain ⟨b', h1, h2⟩ := hs.accepted (UserBuf.accepts_all K hG) (s := b) (t := b.received earlier) ⟨hx, h, rfl⟩ trivial
      exact ⟨b', h2, h1.2.1, h1.2.2⟩

/-- C99: for arguments of the core types it is enough that requests for up to 1421 characters are granted. -/
theorem C99_granted (K : KeepsContract f earlier Good) (hG : GrantsUpTo f 1421 Good) (b : UserBuf f)
    (h : b.InOrder Good) (hx : b.base.fixed = false) (str : Str) (args : List CoreArg) (hn : args.length ≤ 128)
    (hv : ∀ a ∈ args, ValidArg a) (text : Str) (hf : formatStr str (fargs args) = .ok () text) :
    ∃ b', formatTo str (fargs args) b = .ok b' () ∧ b'.InOrder Good ∧
      b'.received earlier = b.received earlier ++ text := by
  obtain ⟨b', h1, h2⟩ := (formats_of_str hn hv hf).accepted (UserBuf.accepts K hG) (Nat.le_refl _) (s := b)
    (t := b.received earlier) ⟨hx, h, rfl⟩ trivial
  exact ⟨b', h1, h2.2.1, h2.2.2⟩

/-- C99: the same through a `truncating_buffer`: if the buffer of the user grants requests for up to 128 characters, it
receives the first characters of the text. -/
theorem C99_truncated (K : KeepsContract f earlier Good) (hG : GrantsUpTo f 128 Good) (b : UserBuf f)
    (h : b.InOrder Good) (hx : b.base.fixed = false) (cache : Str) (hc : cache.length = defaultCacheSize) (limit : Nat)
    (str : Str) (args : List CoreArg) (hn : args.length ≤ 128) (hv : ∀ a ∈ args, ValidArg a) (hs : ShortFloats str args)
    (text : Str) (hf : formatStr str (fargs args) = .ok () text) :
    ∃ b', formatToN cache limit str (fargs args) b = .ok b' text.length ∧ b'.InOrder Good ∧
      b'.received earlier = b.received earlier ++ text.take limit := by
  have hA := UserBuf.accepts K hG
  have hc' : cache.length = 128 := hc
  obtain ⟨b', h1, h2⟩ := (formats_short hn hv hs hf).toN (UserBuf.lawful K false) cache (by rintro rfl; simp at hc')
    (by omega) b (b.received earlier) ⟨hx, h, rfl⟩ limit (hA.unsplit (by simp only [leLimit]; omega)) (hA.takes trivial)
  exact ⟨b', h1, h2.2.1, h2.2.2⟩

end

/-! ### A buffer of a user -/

/-- A buffer with a cache that hands what it gets on to a string, as a user would write it. -/
def sink : Override Str := fun a used size mem own =>
  ⟨mem, own ++ (mem.drop a.off).take used, some ⟨0, mem.length⟩, .ok ⟨0, min size mem.length⟩⟩

/-- Its states: the whole cache of at least `n` characters is the write area. -/
def sinkGood (n : Nat) (a : Area) (mem : Str) (_ : Str) : Prop := a = ⟨0, mem.length⟩ ∧ n ≤ mem.length

theorem sink_keeps (n : Nat) (hn : 0 < n) : KeepsContract sink (fun _ own => own) (sinkGood n) where
  inside := by rintro a mem own ⟨rfl, _⟩; simp
  writable := by
    rintro a mem own ⟨rfl, h⟩ mem' hl _ _
    exact ⟨⟨by rw [hl], by rw [hl]; exact h⟩, rfl⟩
  grants := by
    rintro a mem own used size ⟨rfl, h⟩ _ _ x hx
    simp only [sink] at hx
    cases hx
    exact ⟨_, rfl, ⟨rfl, h⟩, rfl, rfl, Nat.min_le_right _ _, Nat.min_le_left _ _⟩
  refuses := by
    rintro a mem own used size ⟨rfl, h⟩ _ _ e hx
    simp only [sink] at hx
    cases hx
  not_empty := by
    rintro a mem own used size ⟨rfl, h⟩ _ hs x hx
    simp only [sink] at hx
    cases hx
    simp only
    omega

/-- The hypotheses are met: a cache of 4 characters. -/
example : UserBuf.InOrder (sinkGood 4) (⟨⟨false, 0, 0, 4⟩, "????".toList, []⟩ : UserBuf sink) :=
  ⟨Nat.zero_le _, rfl, by decide⟩
example : (formatTo "{:>6}!".toList (fargs [.string "abc".toList])
      (⟨⟨false, 0, 0, 4⟩, "????".toList, []⟩ : UserBuf sink)).state?.map (fun b => b.received (fun _ own => own)) =
    some "   abc!".toList := by decide +kernel
/-- A number that is longer than the cache: nothing but end-of-file. -/
example : ∃ b, formatTo "{}".toList (fargs [.int i32 12345]) (⟨⟨false, 0, 0, 4⟩, "????".toList, []⟩ : UserBuf sink) =
    .err b .eof := by
  have h : (formatTo "{}".toList (fargs [.int i32 12345])
    (⟨⟨false, 0, 0, 4⟩, "????".toList, []⟩ : UserBuf sink)).err? = some .eof := by decide +kernel
  revert h
  cases formatTo "{}".toList (fargs [.int i32 12345]) (⟨⟨false, 0, 0, 4⟩, "????".toList, []⟩ : UserBuf sink) with
  | ok s u => intro h; cases h
  | err s e => intro h; injection h with h; exact ⟨s, by rw [h]⟩
  | bad b => intro h; cases h
/-- With a cache of 1421 characters nothing is refused. -/
example : GrantsUpTo sink 1421 (sinkGood 1421) := by
  rintro a mem own used size ⟨rfl, h⟩ _ _
  exact ⟨_, rfl, by simp only; omega⟩

/-! ### Empty areas -/

/-- What one may expect of a class that does what the documentation asks: writing to it comes to an end. -/
def WritingEnds : Prop :=
  ∀ {S : Type} (f : Override S) (earlier : Str → S → Str) (Good : Area → Str → S → Prop), DocumentedContract f earlier Good →
    ∀ b : UserBuf f, b.InOrder Good → ∀ sv, ∀ bad, writeStr sv b ≠ .bad bad

/-- A buffer that answers every request with an empty area. -/
def emptyAreas : Override Unit := fun _ _ _ _ _ => ⟨[], (), some ⟨0, 0⟩, .ok ⟨0, 0⟩⟩

/-- C99: it does not if the class answers with an empty area, which the documentation does not exclude: `write_str` asks
for an area again and again. -/
theorem C99_empty_areas_violated : ¬ WritingEnds := by
  intro h
  refine h emptyAreas (fun _ _ => []) (fun a mem _ => a = ⟨0, 0⟩ ∧ mem = []) ?_ ⟨⟨false, 0, 0, 0⟩, [], ()⟩
    ⟨Nat.le_refl _, rfl, rfl⟩ ['a'] .diverge (by rw [writeStr]; rfl)
  refine ⟨?_, ?_, ?_, ?_⟩
  · rintro a mem own ⟨rfl, rfl⟩; simp
  · rintro a mem own ⟨rfl, rfl⟩ mem' hl _ _
    exact ⟨⟨rfl, List.length_eq_zero_iff.1 hl⟩, rfl⟩
  · rintro a mem own used size ⟨rfl, rfl⟩ hu _ x hx
    simp only [emptyAreas] at hx
    cases hx
    exact ⟨_, rfl, ⟨rfl, rfl⟩, by simp, rfl, Nat.le_refl _, Nat.zero_le _⟩
  · rintro a mem own used size ⟨rfl, rfl⟩ _ _ e hx
    simp only [emptyAreas] at hx
    cases hx

end Emio
