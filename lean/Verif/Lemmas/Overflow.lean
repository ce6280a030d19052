import Verif.Lemmas.FloatNeed
import Verif.Lemmas.ParserFails
import Verif.Lemmas.FormatApi
/-
Calls that ask for more contiguous characters than a buffer with a cache has.
-/
namespace Emio
open Spec BufferImpl

/-! ### The buffers -/

section
variable {σ : Type} [BufferImpl σ]

/-- The areas that the buffer hands out have at most `c` characters. -/
def AtMost (L : Lawful σ) (c : Nat) : Prop :=
  ∀ s t n s' a, L.Rep s t → getWriteAreaOfMax n s = .ok s' a → a.len ≤ c

theorem writeArea_overflow {L : Lawful σ} {c : Nat} (hL : AtMost L c) {s : σ} {t : Str} (h : L.Rep s t) {n : Nat} (hn : c < n)
    (text : Str) (s' : σ) : writeArea n text s ≠ .ok s' () := by
  intro hx
  unfold writeArea at hx
  have : ∀ s' a, getWriteAreaOf n s ≠ .ok s' a := by
    intro s' a ha
    unfold getWriteAreaOf at ha
    cases hm : getWriteAreaOfMax n s with
    | ok s2 a2 =>
      rw [hm] at ha
      simp only at ha
      have := hL s t n s2 a2 h hm
      rw [if_pos (by omega)] at ha
      cases ha
    | err s2 e => rw [hm] at ha; cases ha
    | bad b => rw [hm] at ha; cases ha
  cases ha : getWriteAreaOf n s with
  | ok s2 a2 => exact this s2 a2 ha
  | err s2 e => rw [M.bind_err ha] at hx; cases hx
  | bad b => rw [M.bind_bad ha] at hx; cases hx

theorem exec_overflow {L : Lawful σ} {c : Nat} (hL : AtMost L c) {s : σ} {t : Str} (h : L.Rep s t) (op : WOp)
    (hop : op.Fine) (hn : c < op.need) (s' : σ) : op.exec s ≠ .ok s' () := by
  cases op with
  | char x =>
    intro hx
    refine writeArea_overflow hL h (n := 1) hn [x] s' ?_
    exact hx
  | charN x n => simp [WOp.need] at hn
  | str sv => simp [WOp.need] at hn
  | area n text => exact writeArea_overflow hL h hn text s'
  | int ty n base up =>
    obtain ⟨h1, h2, h3, h4⟩ := hop
    obtain ⟨b, rfl⟩ := Int.eq_ofNat_of_zero_le (show 0 ≤ base by omega)
    show writeInt ty n b up s ≠ _
    rw [writeInt_eq ty n b up h1 h2 (by omega) (by omega)]
    exact writeArea_overflow hL h hn _ s'
  | strEscaped sv => simp [WOp.need] at hn
  | charEscaped x => simp [WOp.need] at hn

theorem execAll_overflow {L : Lawful σ} {c : Nat} (hL : AtMost L c) : ∀ (ops : List WOp), (∀ op ∈ ops, op.Fine) →
    (∃ op ∈ ops, c < op.need) → ∀ (s : σ) (t : Str), L.Rep s t → ∀ s', execAll ops s ≠ .ok s' () := by
  intro ops
  induction ops with
  | nil => rintro _ ⟨op, ho, _⟩; simp at ho
  | cons o ops ih =>
    rintro hf ⟨op, ho, hn⟩ s t h s' hx
    unfold execAll at hx
    cases hm : o.exec s with
    | err s2 e => rw [M.bind_err hm] at hx; cases hx
    | bad b => rw [M.bind_bad hm] at hx; cases hx
    | ok s2 u =>
      rw [M.bind_ok hm] at hx
      rcases List.mem_cons.1 ho with rfl | ho
      · exact exec_overflow hL h op (hf op (by simp)) hn s2 hm
      · have hw := WOp.exec_wrote L o (hf o (by simp)) h
        rw [hm] at hw
        exact ih (fun o ho => hf o (by simp [ho])) ⟨op, ho, hn⟩ s2 _ hw s' hx

end

theorem IterBuf.atMost (c : Nat) : AtMost (IterBuf.lawful c) c := by
  intro s t n s' a h hm
  have h : IterBuf.Rep c s t := h
  have hb : (BufferImpl.base s) = s.base := rfl
  by_cases hn : n ≤ (BufferImpl.base s).len - (BufferImpl.base s).used
  · rw [max_here hn] at hm
    cases hm
    have h3 := h.2.2.1
    rw [hb] at hn
    simp only
    omega
  · rw [max_request h.1 (by omega)] at hm
    obtain ⟨s', hr, hrep, hu⟩ := IterBuf.request_eq h (BufferImpl.base s).used n
    rw [hr] at hm
    cases hm
    have := (cacheArea_len c n).1
    omega

theorem CountBuf.atMost (c : Nat) : AtMost (CountBuf.lawful c) c := by
  intro s t n s' a h hm
  have h : CountBuf.Rep c s t := h
  have hb : (BufferImpl.base s) = s.base := rfl
  by_cases hn : n ≤ (BufferImpl.base s).len - (BufferImpl.base s).used
  · rw [max_here hn] at hm
    cases hm
    have h3 := h.2.2.1
    have h4 := h.2.2.2.1
    rw [hb] at hn
    simp only
    omega
  · rw [max_request h.1 (by omega)] at hm
    obtain ⟨s', hr, hrep, hu⟩ := CountBuf.request_eq h n
    rw [hr] at hm
    cases hm
    have := (cacheArea_len c n).1
    omega

theorem FileBuf.atMost (c : Nat) (ok : Bool) : AtMost (FileBuf.lawful c ok) c := by
  intro s t n s' a h hm
  have h : FileBuf.Rep c ok s t := h
  have hb : (BufferImpl.base s) = s.base := rfl
  by_cases hn : n ≤ (BufferImpl.base s).len - (BufferImpl.base s).used
  · rw [max_here hn] at hm
    cases hm
    have h3 := h.2.2.1
    rw [hb] at hn
    simp only
    omega
  · rw [max_request h.1 (by omega)] at hm
    rcases FileBuf.request_eq h (BufferImpl.base s).used n with ⟨s', hr, hrep, hu⟩ | ⟨s', hr, _⟩
    · rw [hr] at hm
      cases hm
      have := (cacheArea_len c n).1
      omega
    · rw [hr] at hm; cases hm

theorem TruncBuf.atMost {π : Type} [BufferImpl π] (L : Lawful π) (c limit : Nat) (p0 : Str) (hU : Unsplit L c) :
    AtMost (TruncBuf.lawful L c limit p0 hU) c := by
  intro s t n s' a h hm
  have h : TruncBuf.Rep L c limit p0 s t := h
  have hb : (BufferImpl.base s) = s.base := rfl
  by_cases hn : n ≤ (BufferImpl.base s).len - (BufferImpl.base s).used
  · rw [max_here hn] at hm
    cases hm
    have h3 := h.2.2.1
    rw [hb] at hn
    simp only
    omega
  · rw [max_request h.1 (by omega)] at hm
    rcases TruncBuf.request_eq hU h (BufferImpl.base s).used n with ⟨s', hr, hrep, hu⟩ | ⟨s', hr, _⟩
    · rw [hr] at hm
      cases hm
      have := (cacheArea_len c n).1
      omega
    · rw [hr] at hm; cases hm

/-! ### The format string -/

/-- On every buffer, formatting performs certain calls, which write `text`, and one of which asks for more than `c`
contiguous characters. -/
def Overflows (str : Str) (args : List FArg) (text : Str) (c : Nat) : Prop :=
  ∃ ops, render ops = text ∧ (∀ op ∈ ops, op.Fine) ∧ (∃ op ∈ ops, c < op.need) ∧
    ∀ {σ : Type} [BufferImpl σ] (s : σ), formatTo str args s = execAll ops s

/-- Formatting the argument under this specification asks for more than `c` contiguous characters. -/
def FArg.Long (a : FArg) (body : Str) (c : Nat) : Prop :=
  ∀ r tail, r.At (body ++ tail) → ∀ r' act, a.parse r = .ok r' act → ∀ ops ops', act ops = .ok ops' () →
    ∃ op ∈ ops', c < op.need

/-- One field. -/
theorem loop_step {args : List FArg} {kk fuel : Nat} {last tail : Str} {s : Str × Field} {segs : List (Str × Field)}
    {text : Str} {texts : List Str} {p : PSt} {ops : List WOp} (hlen : args.length ≤ 128)
    (hat : p.rdr.At (segsText (s :: segs) ++ (escBraces last ++ tail))) (hwf : s.2.WellFormed)
    (hmode : ModeOk p.positional ((s :: segs).map (·.2)))
    (hargs : ∀ k ∈ argsFrom p.incr ((s :: segs).map (·.2)), k < args.length)
    (hreads : ReadsAll args kk p.incr ((s :: segs).map (·.2)) (text :: texts))
    (htail : tail = [] ∨ Begins255 tail ∧ (∀ f ∈ (s :: segs).map (·.2), f.idx ≠ []) ∧ p.positional ≠ some false)
    (hincr : p.incr ≤ 128) :
    ∃ (a : FArg) (r : Reader) (act : Fmt Unit) (q : PSt) (ops1 ops2 : List WOp),
      args[s.2.argument p.incr]? = some a ∧ r.At (s.2.body ++ (segsText segs ++ (escBraces last ++ tail))) ∧
      (∃ r', a.parse r = .ok r' act) ∧ act ops1 = .ok ops2 () ∧ ops ⊆ ops2 ∧
      formatLoop args (fuel + 1) ⟨p, ops⟩ = formatLoop args fuel ⟨q, ops2⟩ ∧
      q.rdr.At (segsText segs ++ (escBraces last ++ tail)) ∧ ModeOk q.positional (segs.map (·.2)) ∧ q.incr ≤ 128 ∧
      argsFrom q.incr (segs.map (·.2)) = argsFrom (p.incr + 1) (segs.map (·.2)) ∧
      ReadsAll args kk q.incr (segs.map (·.2)) texts ∧
      (tail = [] ∨ Begins255 tail ∧ (∀ f ∈ segs.map (·.2), f.idx ≠ []) ∧ q.positional ≠ some false) ∧
      (q.incr = p.incr + 1 ∨ ∀ g ∈ (s :: segs).map (·.2), g.idx ≠ []) := by
  simp only [List.map_cons] at hmode hargs hreads htail ⊢
  have hk := hargs (s.2.argument p.incr) (by simp [argsFrom])
  rw [segsText_cons, List.append_assoc] at hat
  rw [ReadsAll] at hreads
  obtain ⟨⟨a, ha, hra⟩, hreads⟩ := hreads
  obtain ⟨p', pieces, h1, h2, h3, h4, h5, h6⟩ := head_fwd hat hwf hmode (by omega) ops
  obtain ⟨_, act, hpar, hem⟩ := hra p'.rdr _ h3
  obtain ⟨n2, e1, e2, e3, e4⟩ := hem (ops ++ pieces.map WOp.str)
  have hpa : processArg a ⟨p', ops ++ pieces.map WOp.str⟩ =
      .ok ⟨{ p' with rdr := p'.rdr.adv s.2.body.length }, ops ++ pieces.map WOp.str ++ n2⟩ () := by
    unfold processArg
    simp only [hpar, e1]
  have hpi : p'.incr ≤ 128 ∧ argsFrom p'.incr (segs.map (·.2)) = argsFrom (p.incr + 1) (segs.map (·.2)) ∧
      ReadsAll args kk p'.incr (segs.map (·.2)) texts := by
    rcases h5 with h5 | ⟨h5, hex⟩
    · have hlt : s.2.idx = [] := by
        by_contra hi
        have := (h6 hi).2
        omega
      simp only [Field.argument, if_pos hlt] at hk
      rw [h5]; exact ⟨by omega, rfl, hreads⟩
    · have hex' : ∀ g ∈ segs.map (·.2), g.idx ≠ [] := fun g hg => hex g (List.mem_cons_of_mem _ hg)
      exact ⟨by omega, explicit_argsFrom _ _ _ hex', explicit_readsAll _ _ _ _ hex' hreads⟩
  obtain ⟨q1, q2, q3⟩ := hpi
  refine ⟨a, p'.rdr, act, { p' with rdr := p'.rdr.adv s.2.body.length }, _, _, ha, h3, ⟨_, hpar⟩, e1, ?_, ?_, h3.adv, h4, q1, q2,
    q3, ?_, h5.imp id (·.2)⟩
  · rw [List.append_assoc]; exact List.subset_append_left _ _
  · rw [formatLoop, M.bind_ok h1, if_neg (by unfold noMoreArgs; omega), ha]
    simp only
    rw [M.bind_ok hpa]
  · rcases htail with h | ⟨g1, g2, g3⟩
    · exact Or.inl h
    · exact Or.inr ⟨g1, fun f hf => g2 f (List.mem_cons_of_mem _ hf), by
        rw [show ({ p' with rdr := p'.rdr.adv s.2.body.length } : PSt).positional = some true from (h6 (g2 s.2 (by simp))).1]
        simp⟩

/-- A field that needs too much. -/
theorem loop_long (args : List FArg) (hlen : args.length ≤ 128) (kk c : Nat) (last tail : Str) (lit : Str) (f : Field)
    (back : List (Str × Field)) :
    ∀ (front : List (Str × Field)) (texts : List Str) (fuel : Nat) (p : PSt) (ops : List WOp),
      p.rdr.At (segsText (front ++ (lit, f) :: back) ++ (escBraces last ++ tail)) →
      (front ++ (lit, f) :: back).length < fuel → (∀ s ∈ front ++ (lit, f) :: back, s.2.WellFormed) →
      ModeOk p.positional ((front ++ (lit, f) :: back).map (·.2)) → p.incr ≤ 128 →
      (∀ k ∈ argsFrom p.incr ((front ++ (lit, f) :: back).map (·.2)), k < args.length) →
      ReadsAll args kk p.incr ((front ++ (lit, f) :: back).map (·.2)) texts →
      (tail = [] ∨ Begins255 tail ∧ (∀ g ∈ (front ++ (lit, f) :: back).map (·.2), g.idx ≠ []) ∧ p.positional ≠ some false) →
      (∃ a, args[f.argument (p.incr + front.length)]? = some a ∧ a.Long f.body c) →
      ∀ st, formatLoop args fuel ⟨p, ops⟩ = .ok st () → ∃ op ∈ st.ops, c < op.need := by
  intro front
  induction front with
  | nil =>
    intro texts fuel p ops hat hfuel hwf hmode hincr hargs hreads htail ⟨b, hb, hbl⟩ st hst
    simp only [List.nil_append] at hat hfuel hwf hmode hargs hreads htail
    cases texts with
    | nil => simp [ReadsAll] at hreads
    | cons text texts =>
      cases fuel with
      | zero => simp at hfuel
      | succ fuel =>
        obtain ⟨a, r, act, q, ops1, ops2, ha, hr, ⟨r', hpar⟩, hact, _, heq, q1, q2, q3, q4, q5, q6, _⟩ :=
          loop_step (fuel := fuel) (ops := ops) hlen hat (hwf _ (by simp)) hmode hargs hreads htail hincr
        simp only [List.length_nil, Nat.add_zero] at hb
        rw [hb] at ha
        cases ha
        obtain ⟨op, ho, hn⟩ := hbl r _ hr _ _ hpar _ _ hact
        obtain ⟨_, g, new, f1, f2, _⟩ := loop_forward_tail args hlen kk last tail back texts fuel q (Bitset.new 128) [] ops2
          (Bitset.rep_new 128) rfl q1 (by simp at hfuel; omega)
          (fun s hs => hwf s (List.mem_cons_of_mem _ hs)) q2 q3
          (by rw [q4]; exact fun k hk => hargs k (by simp only [List.map_cons, argsFrom, List.mem_cons]; exact Or.inr hk))
          (readsSegs_of_all _ _ _ q5) q6
        rw [heq, f1] at hst
        cases hst
        exact ⟨op, by rw [f2]; exact List.mem_append_left _ ho, hn⟩
  | cons s front ih =>
    intro texts fuel p ops hat hfuel hwf hmode hincr hargs hreads htail ⟨b, hb, hbl⟩ st hst
    simp only [List.cons_append] at hat hfuel hwf hmode hargs hreads htail
    cases texts with
    | nil => simp [ReadsAll] at hreads
    | cons text texts =>
      cases fuel with
      | zero => simp at hfuel
      | succ fuel =>
        obtain ⟨a, r, act, q, ops1, ops2, ha, hr, ⟨r', hpar⟩, hact, _, heq, q1, q2, q3, q4, q5, q6, q7⟩ :=
          loop_step (fuel := fuel) (ops := ops) hlen hat (hwf _ (by simp)) hmode hargs hreads htail hincr
        rw [heq] at hst
        refine ih texts fuel q ops2 q1 (by simp at hfuel ⊢; omega) (fun s hs => hwf s (List.mem_cons_of_mem _ hs)) q2 q3
          (by rw [q4]; exact fun k hk => hargs k (by simp only [List.map_cons, argsFrom, List.mem_cons]; exact Or.inr hk))
          q5 q6 ⟨b, ?_, hbl⟩ st hst
        rw [← hb]
        rcases q7 with h | h
        · rw [h, List.length_cons]; congr 2; omega
        · have := h f (by simp)
          simp [Field.argument, this]

/-- A format string with a field that needs too much. -/
theorem overflows_tail (t : FormatText) (tail : Str) (args : List FArg) (texts : List Str) (k c : Nat)
    (hlen : args.length ≤ 128) (wf : ∀ f ∈ t.fields, f.WellFormed) (mode : t.Automatic ∨ t.Explicit)
    (hargs : ∀ k, k ∈ t.arguments ↔ k < args.length) (hreads : ReadsAll args k 0 t.fields texts)
    (htail : tail = [] ∨ Begins255 tail ∧ t.Explicit) {j : Nat} {f : Field} (hf : t.fields[j]? = some f)
    (hlong : ∃ a, args[f.argument j]? = some a ∧ a.Long f.body c) :
    Overflows (t.text ++ tail) args (t.output texts) c := by
  have hmode : ModeOk none t.fields := by
    rcases mode with h | h
    · exact Or.inl ⟨h, by simp⟩
    · exact Or.inr ⟨h, by simp⟩
  have hp : ¬ (args.length = 0 ∧ checkIfPlainString (t.text ++ tail) = true) := by
    rintro ⟨h0, _⟩
    obtain ⟨a, ha, _⟩ := hlong
    rw [List.eq_nil_of_length_eq_zero h0] at ha
    simp at ha
  have hat : (Reader.ofStr (t.text ++ tail)).At (segsText t.segs ++ (escBraces t.last ++ tail)) := by
    have := Reader.at_ofStr (t.text ++ tail)
    unfold FormatText.text at this ⊢
    rw [List.append_assoc] at this ⊢
    exact this
  have hfuel : t.segs.length < (t.text ++ tail).length + 1 := by
    have := segs_length_le t; simp only [List.length_append]; omega
  have hwf : ∀ s ∈ t.segs, s.2.WellFormed := fun s hs => wf s.2 (List.mem_map_of_mem hs)
  have hargs' : ∀ k ∈ argsFrom 0 t.fields, k < args.length := fun k hk => (hargs k).1 (by rw [argsFrom_eq]; exact hk)
  obtain ⟨⟨b, hb, hb'⟩, g, new, h1, h2, h3, h4⟩ := loop_forward_tail args hlen k t.last tail t.segs texts
    ((t.text ++ tail).length + 1) ⟨Reader.ofStr (t.text ++ tail), none, 0⟩ (Bitset.new 128) [] [] (Bitset.rep_new 128) rfl hat
    hfuel hwf hmode (by simp) hargs' (readsSegs_of_all _ _ _ hreads) (htail.imp id fun h => ⟨h.1, h.2, by simp⟩)
  have hbt : b = true := hb'.2 fun k hk => Or.inr (by rw [← hargs k, argsFrom_eq] at hk; exact hk)
  subst hbt
  refine ⟨new, h3, fun op ho => (h4 op ho).1, ?_, ?_⟩
  · obtain ⟨hlt, hj⟩ := List.getElem?_eq_some_iff.1 hf
    have hlt' : j < t.segs.length := by simpa [FormatText.fields] using hlt
    have hsplit : t.segs = t.segs.take j ++ ((t.segs[j]).1, f) :: t.segs.drop (j + 1) := by
      have : ((t.segs[j]).1, f) = t.segs[j] := by
        have hj' : (t.segs[j]).2 = f := by rw [← hj]; simp [FormatText.fields]
        rw [← hj']
      rw [this, List.getElem_cons_drop, List.take_append_drop]
    obtain ⟨op, ho, hn⟩ := loop_long args hlen k c t.last tail (t.segs[j]).1 f (t.segs.drop (j + 1)) (t.segs.take j) texts
      ((t.text ++ tail).length + 1) ⟨Reader.ofStr (t.text ++ tail), none, 0⟩ [] (by rw [← hsplit]; exact hat)
      (by rw [← hsplit]; exact hfuel) (by rw [← hsplit]; exact hwf) (by rw [← hsplit]; exact hmode) (by simp)
      (by rw [← hsplit]; exact hargs') (by rw [← hsplit]; exact hreads)
      (by rw [← hsplit]; exact htail.imp id fun h => ⟨h.1, h.2, by simp⟩)
      (by
        have : (t.segs.take j).length = j := by rw [List.length_take]; omega
        rw [this, Nat.zero_add]; exact hlong) g h1
    rw [h2, List.nil_append] at ho
    exact ⟨op, ho, hn⟩
  · intro σ _ s
    unfold formatTo VStr.make validateStr
    rw [if_neg hp, hb]
    unfold vformatTo
    simp only [Bool.false_eq_true, if_false]
    unfold runOn formatRun
    rw [h1]
    simp only
    rw [h2]
    rfl

end Emio
