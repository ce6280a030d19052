import Verif.Spec.NotCutAll
import Verif.Props.NotCutFloat
import Verif.Props.AnyAccepted
/- C106 for format strings with any fields. -/
namespace Emio
open BufferImpl Spec

/-- The calls of a field with these parts. -/
def Shaped (new : List WOp) (p : Parts) : Prop :=
  (∃ a op b, new = a ++ op :: b ∧ Cuttable a p.left ∧ Cuttable b p.right ∧ op.text = p.body ∧ op.Fine ∧ fillsUp op = false) ∨
    (Cuttable new p.left ∧ p.Soft)

theorem shaped_render {new : List WOp} {p : Parts} (h : Shaped new p) : render new = p.text := by
  rcases h with ⟨a, op, b, rfl, h1, h2, h3, _⟩ | ⟨h1, h2, h3⟩
  · simp [Parts.text, h1.1, h2.1, h3]
  · simp [Parts.text, h1.1, h2, h3]

theorem cutCalls_shaped {new : List WOp} {p : Parts} (h : Shaped new p) (rest : List WOp) {room : Nat}
    (hr : room < p.text.length) : cutCalls room (new ++ rest) = (p.kept room, false) := by
  rcases h with ⟨a, op, b, rfl, h1, h2, h3, _, h5⟩ | ⟨h1, h2, h3⟩
  · unfold Parts.kept
    rw [List.append_assoc, List.cons_append]
    by_cases c1 : room < p.left.length
    · rw [if_pos c1, cutCalls_cuttable a _ h1 _ _ c1]
    · rw [if_neg c1, cutCalls_fits a _ room (by rw [h1.1]; omega), h1.1, cutCalls, h3]
      by_cases c2 : room < p.left.length + p.body.length
      · rw [if_pos c2, if_neg (by omega), h5]
        simp
      · rw [if_neg c2, if_pos (by omega)]
        simp only [Parts.text, List.length_append] at hr
        have hl : (p.left ++ p.body).length ≤ room := by rw [List.length_append]; omega
        rw [cutCalls_cuttable b _ h2 rest _ (by omega), List.take_append, List.take_of_length_le hl, List.length_append,
          Nat.sub_sub]
        simp
  · simp only [Parts.text, h2, h3, List.append_nil] at hr
    unfold Parts.kept
    rw [if_pos hr, cutCalls_cuttable new _ h1 rest room hr]

/-- Each argument writes the parts that belong to its field. -/
def ShapedAt (args : List FArg) : List Nat → List (Str × Field) → List Parts → Prop
  | k :: ks, s :: segs, p :: ps =>
    (∃ a, args[k]? = some a ∧ ∀ r tail, r.At (s.2.body ++ tail) → ∀ r' act, a.parse r = .ok r' act →
      ∀ ops, ∃ new, act ops = .ok (ops ++ new) () ∧ Shaped new p) ∧ ShapedAt args ks segs ps
  | _, _, _ => True

/-- The calls of a formatting function, by literal text and the parts of the fields. -/
def ShapedPieces (last : Str) : List (Str × Field) → List Parts → List WOp → Prop
  | [], [], new => ∃ ps : List Str, new = ps.map WOp.str ∧ ps.flatten = last
  | s :: segs, p :: parts, new => ∃ (ps : List Str) (n2 rest : List WOp), new = ps.map WOp.str ++ n2 ++ rest ∧
      ps.flatten = s.1 ∧ Shaped n2 p ∧ ShapedPieces last segs parts rest
  | _, _, _ => False

theorem loop_shaped (args : List FArg) (hlen : args.length ≤ 128) (kk : Nat) (last tail : Str) :
    ∀ (segs : List (Str × Field)) (parts : List Parts) (fuel : Nat) (p : PSt) (ops : List WOp),
      p.rdr.At (segsText segs ++ (escBraces last ++ tail)) →
      segs.length < fuel → (∀ s ∈ segs, s.2.WellFormed) → ModeOk p.positional (segs.map (·.2)) → p.incr ≤ 128 →
      (∀ k ∈ argsFrom p.incr (segs.map (·.2)), k < args.length) →
      ReadsBehind args kk (escBraces last ++ tail) p.incr segs (parts.map Parts.text) →
      ShapedAt args (argsFrom p.incr (segs.map (·.2))) segs parts →
      (tail = [] ∨ Begins255 tail ∧ (∀ f ∈ segs.map (·.2), f.idx ≠ []) ∧ p.positional ≠ some false) →
      ∃ f new, formatLoop args fuel ⟨p, ops⟩ = .ok f () ∧ f.ops = ops ++ new ∧ ShapedPieces last segs parts new ∧
        ∀ op ∈ new, op.Fine := by
  intro segs
  induction segs with
  | nil =>
    intro parts fuel p ops hat hfuel hwf hmode hincr hargs hreads hshape htail
    cases parts with
    | cons t ts => simp [ReadsBehind] at hreads
    | nil =>
    cases fuel with
    | zero => simp at hfuel
    | succ fuel =>
      have hend : ∃ p', ∀ ops, ∃ pieces : List Str, Unchecked.parse ⟨p, ops⟩ =
          .ok ⟨p', ops ++ pieces.map WOp.str⟩ noMoreArgs ∧ pieces.flatten = last := by
        have hat' : p.rdr.At (escBraces last ++ tail) := by simpa [segsText] using hat
        rcases htail with rfl | ⟨h, _, hm⟩
        · rw [List.append_nil] at hat'
          exact ⟨_, (parse_fwd_end hat').2⟩
        · obtain ⟨p', _, h2⟩ := parse_fwd_stop hat' h hm
          exact ⟨p', h2⟩
      obtain ⟨p', h2⟩ := hend
      obtain ⟨pieces, g1, g2⟩ := h2 ops
      rw [formatLoop, M.bind_ok g1, if_pos rfl]
      refine ⟨_, pieces.map WOp.str, rfl, rfl, ⟨pieces, rfl, g2⟩, ?_⟩
      intro op ho
      exact (map_str_fine pieces op ho).1
  | cons s segs ih =>
    intro parts fuel p ops hat hfuel hwf hmode hincr hargs hreads hshape htail
    obtain ⟨lit, idx, colon, body⟩ := s
    cases fuel with
    | zero => simp at hfuel
    | succ fuel =>
      cases parts with
      | nil => simp [ReadsBehind] at hreads
      | cons part parts =>
        rw [List.map_cons, ReadsBehind] at hreads
        obtain ⟨⟨a, ha, hra⟩, hreads⟩ := hreads
        have hwf1 := hwf _ (List.mem_cons_self ..)
        have hd : ∀ c ∈ idx, isDigit c = true := fun c hc => by rw [isDigit_eq]; exact hwf1.idx c hc
        have hk1 := hargs (Field.argument p.incr ⟨idx, colon, body⟩) (by simp [argsFrom])
        have hat1 : p.rdr.At (escBraces lit ++ '{' :: (idx ++ ((if colon then [':'] else []) ++
            (body ++ (segsText segs ++ (escBraces last ++ tail)))))) := by
          rw [segsText_cons] at hat
          simpa [Field.text] using hat
        have hb : colon = false → (body ++ (segsText segs ++ (escBraces last ++ tail))).head? = some '}' := by
          intro hc
          have := hwf1.body hc
          simp only at this
          cases body with
          | nil => simp at this
          | cons x xs => simpa using this
        have hm : (idx = [] ∧ p.positional ≠ some true) ∨
            (idx ≠ [] ∧ p.positional ≠ some false ∧ numeralValue 10 idx < 256) := by
          rcases hmode with ⟨h1, h2⟩ | ⟨h1, h2⟩
          · exact Or.inl ⟨h1 ⟨idx, colon, body⟩ (by simp), h2⟩
          · have h3 := h1 ⟨idx, colon, body⟩ (by simp)
            simp only at h3
            simp only [Field.argument, if_neg h3] at hk1
            exact Or.inr ⟨h3, h2, by omega⟩
        obtain ⟨p', n, h1, hh, hu⟩ := parse_fwd hat1 hd hb hm
        obtain ⟨pieces, g1, g2⟩ := hu ops
        obtain ⟨hat2, hadv⟩ := parse_field_at hat1 hh
        have hnn : n = Field.argument p.incr ⟨idx, colon, body⟩ := by
          rcases hh.mode with ⟨h1, _, _, _, h5⟩ | ⟨h1, _, _, _, h5, _⟩
          · simp only at h5; simp [Field.argument, h1, h5]
          · simp [Field.argument, h1, h5]
        have hnm : n ≠ noMoreArgs := by unfold noMoreArgs; omega
        obtain ⟨hval, act, hpar, hem⟩ := hra p'.rdr hat2
        rw [formatLoop, M.bind_ok g1, if_neg hnm]
        rw [hnn, ha]
        simp only
        obtain ⟨n2, e1, _, e3, e4⟩ := hem (ops ++ pieces.map WOp.str)
        have e2 : Shaped n2 part := by
          obtain ⟨a', ha', hs'⟩ := hshape.1
          rw [ha] at ha'
          obtain rfl := Option.some.inj ha'
          obtain ⟨new, f1, f2⟩ := hs' _ _ hat2 _ _ hpar (ops ++ pieces.map WOp.str)
          rw [e1] at f1
          obtain ⟨f1, _⟩ := ok_inj f1
          rw [List.append_cancel_left f1]
          exact f2
        have hpa : processArg a ⟨p', ops ++ pieces.map WOp.str⟩ =
            .ok ⟨{ p' with rdr := p'.rdr.adv body.length }, ops ++ pieces.map WOp.str ++ n2⟩ () := by
          unfold processArg
          simp only [hpar, e1]
        rw [M.bind_ok hpa]
        have hpi : p'.incr ≤ 128 ∧ argsFrom p'.incr (segs.map (·.2)) = argsFrom (p.incr + 1) (segs.map (·.2)) ∧
            ReadsBehind args kk (escBraces last ++ tail) p'.incr segs (parts.map Parts.text) ∧ ModeOk p'.positional (segs.map (·.2)) := by
          rcases hh.mode with ⟨i1, i2, i3, i4, i5⟩ | ⟨i1, i2, i3, i4, i5, _⟩
          · simp only at i4 i5
            have : p'.incr = p.incr + 1 := by omega
            rw [this]
            refine ⟨by omega, rfl, hreads, ?_⟩
            rcases hmode with ⟨j1, j2⟩ | ⟨j1, j2⟩
            · exact Or.inl ⟨fun f hf => j1 f (by simp at hf ⊢; right; exact hf), by rw [i3]; simp⟩
            · exact absurd i1 (j1 ⟨idx, colon, body⟩ (by simp))
          · simp only at i4 i5
            rcases hmode with ⟨j1, j2⟩ | ⟨j1, j2⟩
            · exact absurd (j1 ⟨idx, colon, body⟩ (by simp)) i1
            · have hex : ∀ f ∈ segs.map (·.2), f.idx ≠ [] := fun f hf => j1 f (by simp at hf ⊢; right; exact hf)
              exact ⟨by omega, explicit_argsFrom _ _ _ hex, explicit_readsSegs _ _ _ _ hex hreads,
                Or.inr ⟨hex, by rw [i3]; simp⟩⟩
        obtain ⟨q1, q2, q3, q4⟩ := hpi
        obtain ⟨f, new, f1, f2, f3, f4⟩ := ih parts fuel { p' with rdr := p'.rdr.adv body.length }
          (ops ++ pieces.map WOp.str ++ n2) hat2.adv (by simpa using hfuel)
          (fun s hs => hwf s (List.mem_cons_of_mem _ hs)) q4 q1
          (by simp only; rw [q2]; exact fun k hk => hargs k (by simp only [List.map_cons, argsFrom, List.mem_cons]; exact Or.inr hk)) q3
          (by simp only; rw [q2]; exact hshape.2)
          (htail.imp id fun h => ⟨h.1, fun f hf => h.2.1 f (List.mem_cons_of_mem _ hf), by
            rcases hh.mode with ⟨i1, _⟩ | ⟨_, _, i3, _⟩
            · exact absurd i1 (h.2.1 ⟨idx, colon, body⟩ (by simp))
            · simp only
              rw [i3]
              simp⟩)
        refine ⟨f, pieces.map WOp.str ++ n2 ++ new, f1, by rw [f2]; simp, ⟨pieces, n2, new, rfl, g2, e2, f3⟩, ?_⟩
        intro op ho
        simp only [List.mem_append] at ho
        rcases ho with (ho | ho) | ho
        · exact (map_str_fine pieces op ho).1
        · exact e3 op ho
        · exact f4 op ho

/-- The calls of `format_to`, by literal text and fields, the latter with their parts. -/
theorem formatTo_shaped (t : FormatText) (tail : Str) (args : List FArg) (parts : List Parts) (k : Nat) (hlen : args.length ≤ 128)
    (wf : ∀ f ∈ t.fields, f.WellFormed) (mode : t.Automatic ∨ t.Explicit)
    (hargs : ∀ k, k ∈ t.arguments ↔ k < args.length) (hreads : ReadsAll args k 0 t.fields (parts.map Parts.text))
    (hshape : ShapedAt args t.arguments t.segs parts) (htail : tail = [] ∨ Begins255 tail ∧ t.Explicit) :
    ∃ ops, ShapedPieces t.last t.segs parts ops ∧ (∀ op ∈ ops, op.Fine) ∧
      ∀ {σ : Type} [BufferImpl σ] (s : σ), formatTo (t.text ++ tail) args s = execAll ops s := by
  have hreads := readsSegs_of_all (behind := escBraces t.last ++ tail) _ _ _ hreads
  have hmode : ModeOk none t.fields := by
    rcases mode with h | h
    · exact Or.inl ⟨h, by simp⟩
    · exact Or.inr ⟨h, by simp⟩
  obtain ⟨f, new, h1, h2, h3, h4⟩ := loop_shaped args hlen k t.last tail t.segs parts ((t.text ++ tail).length + 1)
    ⟨Reader.ofStr (t.text ++ tail), none, 0⟩ [] (by
      have := Reader.at_ofStr (t.text ++ tail)
      unfold FormatText.text at this ⊢
      rw [List.append_assoc] at this ⊢
      exact this)
    (by have := segs_length_le t; simp only [List.length_append]; omega)
    (fun s hs => wf s.2 (List.mem_map_of_mem hs)) hmode (by simp)
    (fun k hk => (hargs k).1 (by rw [argsFrom_eq]; exact hk)) hreads (by rw [argsFrom_eq] at hshape; exact hshape)
    (htail.imp id fun h => ⟨h.1, h.2, by simp⟩)
  obtain ⟨⟨b, hb, hb'⟩, _⟩ := loop_forward_tail args hlen k t.last tail t.segs (parts.map Parts.text) ((t.text ++ tail).length + 1)
    ⟨Reader.ofStr (t.text ++ tail), none, 0⟩ (Bitset.new 128) [] [] (Bitset.rep_new 128) rfl (by
      have := Reader.at_ofStr (t.text ++ tail)
      unfold FormatText.text at this ⊢
      rw [List.append_assoc] at this ⊢
      exact this)
    (by have := segs_length_le t; simp only [List.length_append]; omega)
    (fun s hs => wf s.2 (List.mem_map_of_mem hs)) hmode (by simp)
    (fun k hk => (hargs k).1 (by rw [argsFrom_eq]; exact hk)) hreads (htail.imp id fun h => ⟨h.1, h.2, by simp⟩)
  have hbt : b = true := hb'.2 fun k hk => Or.inr (by rw [← hargs k, argsFrom_eq] at hk; exact hk)
  subst hbt
  by_cases hp : args.length = 0 ∧ checkIfPlainString (t.text ++ tail) = true
  · have ht0 : tail = [] := by
      rcases htail with h | ⟨⟨ds, c, rest, h, _⟩, _⟩
      · exact h
      · have := ((plain_iff _).1 hp.2).1
        rw [h] at this
        simp at this
    subst ht0
    rw [List.append_nil] at hp ⊢
    obtain ⟨hs, ht⟩ := plain_text hp.2
    have htx : parts = [] := by
      rw [hs] at hreads
      cases parts with
      | nil => rfl
      | cons => simp [ReadsBehind] at hreads
    refine ⟨[.str t.text], ?_, ?_, ?_⟩
    · rw [hs, htx]
      exact ⟨[t.text], rfl, by simp [ht]⟩
    · have := map_str_fine [t.text]
      simp only [List.map_cons, List.map_nil] at this
      exact fun op ho => (this op ho).1
    · intro σ _ s
      rw [execAll_single]
      unfold formatTo VStr.make
      rw [if_pos hp]
      rfl
  · refine ⟨new, h3, h4, ?_⟩
    intro σ _ s
    unfold formatTo VStr.make validateStr
    rw [if_neg hp, hb]
    unfold vformatTo
    simp only [Bool.false_eq_true, if_false]
    unfold runOn formatRun
    rw [h1]
    simp only
    rw [h2]
    rfl

theorem shaped_of_around {m : Fmt Unit} {p : Parts} {op : WOp} (hw : WritesAround m p.left [op] p.right)
    (ht : op.text = p.body) (hf : op.Fine) (ho : fillsUp op = false) (ops : List WOp) :
    ∃ new, m ops = .ok (ops ++ new) () ∧ Shaped new p := by
  obtain ⟨a, b, h1, h2, h3⟩ := hw ops
  exact ⟨_, h1, Or.inl ⟨a, op, b, rfl, h2, h3, ht, hf, ho⟩⟩

theorem shaped_soft {m : Fmt Unit} {text : Str} (h : ∀ ops, ∃ calls, m ops = .ok (ops ++ calls) () ∧ Cuttable calls text) :
    (⟨text, [], []⟩ : Parts).Soft ∧ ∀ ops, ∃ new, m ops = .ok (ops ++ new) () ∧ Shaped new ⟨text, [], []⟩ := by
  refine ⟨⟨rfl, rfl⟩, fun ops => ?_⟩
  obtain ⟨calls, h1, h2⟩ := h ops
  exact ⟨calls, h1, Or.inr ⟨h2, rfl, rfl⟩⟩

theorem nonfinite_cut {s : Specs} (h : s.Ok) {bits : Nat} (hb : bits < 2 ^ 64) (hf : ¬ IsFinite bits) :
    ∃ text, ∀ ops, ∃ calls, formatAndWriteDecimal s (decode bits) ops = .ok (ops ++ calls) () ∧ Cuttable calls text := by
  obtain ⟨h1, h2⟩ := decode_special hb hf
  unfold formatAndWriteDecimal
  simp only
  rw [if_pos (by rw [h1]; split <;> simp)]
  generalize hs' : (if s.zeroFlag = true then { s with fill := ' ', zeroFlag := false } else s) = s'
  have hz : s'.zeroFlag = false := by
    rw [← hs']
    split
    · rfl
    · rename_i hc; simpa using hc
  have hok : s'.Ok := by
    rw [← hs']
    split
    · exact ⟨h.width, h.precision, by simp⟩
    · exact h
  obtain ⟨c, g1, g2⟩ := (sign_emits s' (decode bits).negative).2 hz
  obtain ⟨w, hw⟩ : ∃ w : Str, writeNonFinite (parseFpSpecs s).upper (decide ((decode bits).category = Category.infinity)) =
      emit (.str w) := by
    unfold writeNonFinite
    split <;> exact ⟨_, rfl⟩
  have key : ∃ mid text, (∀ ops, (do
        if c ≠ noChar then emit (.char c)
        writeNonFinite (parseFpSpecs s).upper (decide ((decode bits).category = Category.infinity)) : Fmt Unit) ops =
      .ok (ops ++ mid) ()) ∧ Cuttable mid text := by
    rw [hw]
    by_cases hc : c = noChar
    · refine ⟨[.str w], _, fun ops => ?_, cuttable_one trivial (Or.inl rfl)⟩
      simp only [hc, ne_eq, not_true_eq_false, if_false]
      rfl
    · refine ⟨[.char c] ++ [.str w], _, fun ops => ?_,
        cuttable_append (cuttable_one (op := .char c) trivial (Or.inr (by simp [WOp.text])))
          (cuttable_one (op := .str w) trivial (Or.inl rfl))⟩
      simp only [ne_eq, hc, not_false_eq_true, if_true]
      show Run.ok (ops ++ [WOp.char c] ++ [WOp.str w]) () = _
      simp
  obtain ⟨mid, text, k1, k2⟩ := key
  refine ⟨surround (if s'.align = .none then .left else s'.align) s'.fill
    (fillCount s' (3 + (if c ≠ noChar then 1 else 0))) text, fun ops => ?_⟩
  rw [M.bind_ok (g1 ops)]
  exact writePadded_cut s' hok (3 + (if c ≠ noChar then 1 else 0)) (by split <;> omega) k1 k2 ops

/-- All arguments write their parts. -/
theorem core_shape (a : CoreArg) (s : Specs) (hok : s.Ok) (ha : ValidArg a) (hc : a.ty.check s = true)
    (hO : ¬ OctalO a s) : ∃ p, PartsOf a s p ∧ ∀ ops, ∃ new, a.write s ops = .ok (ops ++ new) () ∧ Shaped new p := by
  cases a with
  | int t n =>
    have hc' : (checkIntegralSpecs s && (t.signed || checkUnsignedSpecs s)) = true := hc
    simp only [Bool.and_eq_true] at hc'
    obtain ⟨op, h1, h2, h3, h4⟩ := writeArgInt_around s hok t ha.1 n ha.2 (intTypes hc'.1 (fun h => hO ⟨h, trivial⟩))
    exact ⟨_, rfl, shaped_of_around h1 h2 h3 h4⟩
  | pointer addr =>
    obtain ⟨op, h1, h2, h3, h4⟩ := writeArgPtr_around s hok addr ha hc
    exact ⟨_, rfl, shaped_of_around h1 h2 h3 h4⟩
  | string str =>
    obtain ⟨h1, h2⟩ := shaped_soft (writeArgStr_cut s hok str ha.1 ha.2)
    exact ⟨_, h1, h2⟩
  | double bits =>
    by_cases hf : IsFinite bits
    · obtain ⟨op, h1, h2, h3, h4⟩ := float_around hok hc ha hf ((needs_any (.double bits) s hok hc).double bits rfl hf)
      refine ⟨_, ?_, shaped_of_around h1 h2 h3 h4⟩
      simp only [PartsOf]
      rw [if_pos hf]
      exact ⟨_, rfl, fun h => if_neg h⟩
    · obtain ⟨text, ht⟩ := nonfinite_cut hok ha hf
      obtain ⟨h1, h2⟩ := shaped_soft ht
      refine ⟨_, ?_, h2⟩
      simp only [PartsOf]
      rw [if_neg hf]
      exact h1
  | bool b =>
    have hc : checkBoolSpecs s = true := hc
    by_cases ht : s.type = noChar ∨ s.type = 's'
    · have : ∃ text, ∀ ops, ∃ calls, writeArgBool s b ops = .ok (ops ++ calls) () ∧ Cuttable calls text := by
        unfold writeArgBool
        rw [if_neg (by tauto)]
        cases b
        · exact ⟨_, writePadded_cut s hok 5 (by decide) (fun _ => rfl) (cuttable_one trivial (Or.inl rfl))⟩
        · exact ⟨_, writePadded_cut s hok 4 (by decide) (fun _ => rfl) (cuttable_one trivial (Or.inl rfl))⟩
      obtain ⟨text, h⟩ := this
      obtain ⟨h1, h2⟩ := shaped_soft h
      refine ⟨_, ?_, h2⟩
      simp only [PartsOf]
      rw [if_pos ht]
      exact h1
    · unfold checkBoolSpecs at hc
      rw [if_pos (by tauto)] at hc
      obtain ⟨op, h1, h2, h3, h4⟩ := writeArgInt_around s hok u8 (by decide) (if b then 1 else 0)
        (by cases b <;> decide) (intTypes hc (fun h => hO ⟨h, trivial⟩))
      refine ⟨intParts s (if b then 1 else 0), ?_, fun ops => ?_⟩
      · simp only [PartsOf]
        rw [if_neg ht]
        trivial
      · show ∃ new, writeArgBool s b ops = _ ∧ _
        unfold writeArgBool
        rw [if_pos (by tauto)]
        exact shaped_of_around h1 h2 h3 h4 ops
  | char c =>
    have hc : checkCharSpecs s = true := hc
    have hb : c.toNat < 256 := ha
    by_cases ht : s.type = noChar ∨ s.type = 'c' ∨ s.type = '?'
    · have : ∃ text, ∀ ops, ∃ calls, writeArgChar s c ops = .ok (ops ++ calls) () ∧ Cuttable calls text := by
        unfold writeArgChar
        rw [if_neg (by tauto)]
        by_cases hq : s.type = '?'
        · rw [if_neg (by simp [hq])]
          exact ⟨_, writePadded_cut s hok 3 (by decide) (fun _ => rfl) (cuttable_one trivial (Or.inl rfl))⟩
        · rw [if_pos hq]
          exact ⟨_, writePadded_cut s hok 1 (by decide) (fun _ => rfl)
            (cuttable_one (op := .char c) trivial (Or.inr (by simp [WOp.text])))⟩
      obtain ⟨text, h⟩ := this
      obtain ⟨h1, h2⟩ := shaped_soft h
      refine ⟨_, ?_, h2⟩
      simp only [PartsOf]
      rw [if_pos ht]
      exact h1
    · unfold checkCharSpecs at hc
      rw [if_pos (by tauto)] at hc
      obtain ⟨op, h1, h2, h3, h4⟩ := writeArgInt_around s hok u8 (by decide) c.toNat
        ⟨by have : u8.min = 0 := (by decide); omega, by
          have : u8.max = 255 := by decide
          omega⟩ (intTypes hc (fun h => hO ⟨h, trivial⟩))
      refine ⟨intParts s c.toNat, ?_, fun ops => ?_⟩
      · simp only [PartsOf]
        rw [if_neg ht]
        trivial
      · show ∃ new, writeArgChar s c ops = _ ∧ _
        unfold writeArgChar
        rw [if_pos (by tauto)]
        exact shaped_of_around h1 h2 h3 h4 ops

theorem shaped_kept (last : Str) : ∀ (segs : List (Str × Field)) (parts : List Parts) (ops : List WOp) (room : Nat),
    ShapedPieces last segs parts ops → cutCalls room ops = (keptFields room ((segs.map (·.1)).zip parts) last,
      decide ((segsOut segs (parts.map Parts.text) ++ last).length ≤ room)) := by
  intro segs
  induction segs with
  | nil =>
    intro parts ops room h
    cases parts with
    | cons => exact h.elim
    | nil =>
      obtain ⟨ps, rfl, rfl⟩ := h
      simp only [List.map_nil, List.zip_nil_left, keptFields, segsOut, List.flatMap_nil, List.nil_append]
      by_cases hr : ps.flatten.length ≤ room
      · have := cutCalls_fits (ps.map WOp.str) [] room (by rw [map_str_render]; exact hr)
        rw [List.append_nil, map_str_render] at this
        rw [this, decide_eq_true hr, List.take_of_length_le hr]
        simp [cutCalls]
      · have := cutCalls_strs ps [] room (by omega)
        rw [List.append_nil] at this
        rw [this, decide_eq_false hr]
  | cons s segs ih =>
    intro parts ops room h
    cases parts with
    | nil => exact h.elim
    | cons part parts =>
      obtain ⟨ps, n2, rest, rfl, h1, h2, h3⟩ := h
      have ht := shaped_render h2
      have hout : segsOut (s :: segs) ((part :: parts).map Parts.text) ++ last =
          s.1 ++ part.text ++ (segsOut segs (parts.map Parts.text) ++ last) := by
        simp [segsOut]
      rw [hout]
      simp only [List.map_cons, List.zip_cons_cons, keptFields]
      rw [List.append_assoc]
      by_cases hl : room < s.1.length
      · rw [if_pos hl, cutCalls_strs ps _ room (by rw [h1]; exact hl), h1, decide_eq_false]
        simp only [List.length_append]
        omega
      · rw [if_neg hl]
        have hfit := cutCalls_fits (ps.map WOp.str) (n2 ++ rest) room (by rw [map_str_render, h1]; omega)
        rw [map_str_render, h1] at hfit
        rw [hfit]
        by_cases hx : room < s.1.length + part.text.length
        · rw [if_pos hx, cutCalls_shaped h2 rest (by omega), decide_eq_false]
          simp only [List.length_append]
          omega
        · rw [if_neg hx, cutCalls_fits n2 rest _ (by rw [ht]; omega), ht, Nat.sub_sub, ih parts rest _ h3]
          simp only [List.append_assoc]
          congr 1
          rw [decide_eq_decide]
          simp only [List.length_append]
          omega

theorem choose_list {α : Type} {q : Nat → α → Prop} : ∀ n, (∀ i < n, ∃ x, q i x) →
    ∃ l : List α, l.length = n ∧ ∀ i x, l[i]? = some x → q i x := by
  intro n
  induction n with
  | zero => intro _; exact ⟨[], rfl, by simp⟩
  | succ n ih =>
    intro h
    obtain ⟨l, h1, h2⟩ := ih fun i hi => h i (by omega)
    obtain ⟨x, hx⟩ := h n (by omega)
    refine ⟨l ++ [x], by simp [h1], fun i y hy => ?_⟩
    by_cases hi : i < n
    · rw [List.getElem?_append_left (by omega)] at hy
      exact h2 i y hy
    · rw [List.getElem?_append_right (by omega)] at hy
      have hi0 : i - l.length = 0 := by
        have := (List.getElem?_eq_some_iff.1 hy).1
        simp at this
        omega
      rw [hi0] at hy
      simp at hy
      obtain rfl : i = n := by omega
      rw [← hy]
      exact hx

theorem shapedAt_of {args : List FArg} : ∀ (ks : List Nat) (segs : List (Str × Field)) (parts : List Parts),
    (∀ (i k : Nat) (s : Str × Field) (p : Parts), ks[i]? = some k → segs[i]? = some s → parts[i]? = some p →
      ∃ a, args[k]? = some a ∧ ∀ (r : Reader) tail, r.At (s.2.body ++ tail) → ∀ r' act, a.parse r = .ok r' act →
        ∀ ops, ∃ new, act ops = .ok (ops ++ new) () ∧ Shaped new p) → ShapedAt args ks segs parts := by
  intro ks
  induction ks with
  | nil => intros; simp [ShapedAt]
  | cons k ks ih =>
    intro segs parts h
    cases segs with
    | nil => simp [ShapedAt]
    | cons s segs =>
      cases parts with
      | nil => simp [ShapedAt]
      | cons p parts =>
        refine ⟨h 0 k s p rfl rfl rfl, ih segs parts fun i k' s' p' h1 h2 h3 => ?_⟩
        exact h (i + 1) k' s' p' (by simpa using h1) (by simpa using h2) (by simpa using h3)

/-- What a format string leaves in a span, exactly, whatever has been written into it before: literal text and fill
characters are cut where the span ends, numbers are there completely or not at all. Widths and precisions of any size are
allowed (they are taken modulo 2^32), and text that is ignored may stand behind (C63). -/
theorem C106_in_any_format (t : Template) (tail : Str) (args : List CoreArg) (pass : t.NumbersPass) (suits : t.reduced.Suits args)
    (htail : tail = [] ∨ Begins255 tail ∧ t.format.Explicit) (hv : ∀ a ∈ args, ValidArg a) (hO : ∀ j, ¬ AsksO t args j) :
    ∃ parts : List Parts, parts.length = t.segs.length ∧ AloneUpTo t args (parts.map Parts.text) ∧
      (∀ (i k : Nat) (s : Str × Hole) (a : CoreArg) (p : Parts), t.format.arguments[i]? = some k → t.segs[i]? = some s →
        args[k]? = some a → parts[i]? = some p → PartsOf a s.2.reduced.specs p) ∧
      ∀ (mem : Str) (ops : List ClientOp) (s : SpanBuf) (old : Str),
        client spanReset ops (SpanBuf.new mem, []) = some (s, old) →
        ∃ s', formatTo (t.text ++ tail) (fargs args) s =
            (if old.length + (t.output (parts.map Parts.text)).length ≤ mem.length then .ok s' () else .err s' .eof) ∧
          s'.view = old ++ keptFields (mem.length - old.length) ((t.segs.map (·.1)).zip parts) t.last := by
  obtain ⟨parts, h1, h2⟩ := choose_list (α := Parts) (q := fun i p => ∀ (k : Nat) (s : Str × Hole),
      t.format.arguments[i]? = some k → t.segs[i]? = some s → ∃ a : CoreArg, args[k]? = some a ∧
        PartsOf a s.2.reduced.specs p ∧ a.farg.Reads s.2.field.body p.text 1421 ∧
        ∀ (r : Reader) tail, r.At (s.2.field.body ++ tail) → ∀ r' act, a.farg.parse r = .ok r' act →
          ∀ ops, ∃ new, act ops = .ok (ops ++ new) () ∧ Shaped new p) t.segs.length fun i hi => by
    have hs : t.segs[i]? = some t.segs[i] := List.getElem?_eq_getElem hi
    have hk : t.format.arguments[i]? = some (t.format.arguments[i]'(by rw [arguments_length]; exact hi)) :=
      List.getElem?_eq_getElem _
    obtain ⟨_, hg, a, ha, hal⟩ := wide_hole pass suits (mem_zip_get hk hs)
    have hva := hv a (List.mem_of_getElem? ha)
    have hno : ¬ OctalO a t.segs[i].2.reduced.specs := fun h => hO i ((asks_reduced t args i).1
      ((octal_of_asks (t := t.reduced) (s := (t.segs[i].1, t.segs[i].2.reduced)) (by rw [reduced_arguments]; exact hk)
        (by simp only [Template.reduced, List.getElem?_map, hs, Option.map_some]) ha).2 h))
    have hsp : t.segs[i].2.reduced.specs = (t.segs[i].2.spec.getD {}).reduced.meaning := by
      unfold Hole.specs
      rw [hole_reduced_spec]
    generalize t.segs[i] = sg at *
    simp only at hg ha hal
    have hwf : (sg.2.spec.getD {}).reduced.WellFormed ∧ (sg.2.spec.getD {}).reduced.Fits :=
      ⟨reduced_wellFormed hg.1, reduced_fits hg.2⟩
    have hc := (allows_iff a.ty hwf.1).2 hal
    rw [hsp] at hno
    obtain ⟨p, g1, g2⟩ := core_shape a _ (meaning_ok hwf.2) hva hc hno
    obtain ⟨text, he⟩ := core_emits_some a _ (meaning_ok hwf.2) hva hc hno (needs_any a _ (meaning_ok hwf.2) hc)
    have htext : text = p.text := by
      obtain ⟨n1, e1, e2, _⟩ := he []
      obtain ⟨n2, f1, f2⟩ := g2 []
      rw [e1] at f1
      have := (ok_inj f1).1
      simp only [List.nil_append] at this
      rw [← e2, this, shaped_render f2]
    subst htext
    have hb : sg.2.field.body = (sg.2.spec.getD {}).text ++ ['}'] := by
      unfold Hole.field
      cases hs : sg.2.spec <;> rfl
    refine ⟨p, fun k s hk' hs' => ?_⟩
    rw [hk] at hk'
    rw [hs] at hs'
    cases hk'
    cases hs'
    refine ⟨a, ha, by rw [hsp]; exact g1, ?_, fun r tail hat r' act hact => ?_⟩
    · rw [hb]
      exact core_reads_wide a hg.1 hg.2 (core_reads a _ hwf.1 hwf.2 hc he)
    · rw [hb] at hat
      have hrest : r.rest = (sg.2.spec.getD {}).text ++ '}' :: tail := by simpa using hat.2
      have h2 := (specs_agree hat.1 (specs_forward_wide hg.1 hg.2 (u := r) ⟨hat.1, hrest⟩)).1
      have hact' : (do let s ← parseFormatSpecs {}; return a.write s : M Reader (Fmt Unit)) r = .ok r' act := hact
      rw [M.bind_ok h2] at hact'
      have := (ok_inj hact').2
      rw [reduced_meaning] at g2
      rw [← this]
      exact g2
  refine ⟨parts, h1, fun i k s text hk hs ht => ?_, fun i k s a p hk hs ha hp => ?_, ?_⟩
  · rw [List.getElem?_map, Option.map_eq_some_iff] at ht
    obtain ⟨p, hp, rfl⟩ := ht
    obtain ⟨a, ha, _, hr, _⟩ := h2 i p hp k s hk hs
    exact ⟨a, ha, (formats_single hr).str⟩
  · obtain ⟨a', ha', hp', _⟩ := h2 i p hp k s hk hs
    rw [ha] at ha'
    cases ha'
    exact hp'
  have hr := readsAll_first (t := t) (args := args) (texts := parts.map Parts.text) (by simpa using h1) (Nat.le_refl _) (by
    intro i k s text hk hs ht
    rw [List.getElem?_map, Option.map_eq_some_iff] at ht
    obtain ⟨p, hp, rfl⟩ := ht
    obtain ⟨a, ha, _, hr, _⟩ := h2 i p hp k s hk hs
    exact ⟨a, ha, hr⟩)
  rw [List.take_of_length_le (by simp [Template.format])] at hr
  have hshape : ShapedAt (fargs args) t.format.arguments t.format.segs parts := by
    refine shapedAt_of _ _ _ fun i k s p hk hs hp => ?_
    have hs : (t.segs.map fun s => (s.1, s.2.field))[i]? = some s := hs
    rw [List.getElem?_map, Option.map_eq_some_iff] at hs
    obtain ⟨s0, hs0, rfl⟩ := hs
    obtain ⟨a, ha, _, _, hp'⟩ := h2 i p hp k s0 hk hs0
    exact ⟨a.farg, by simp [fargs, ha], hp'⟩
  obtain ⟨calls, hp, hfine, hto⟩ := formatTo_shaped t.format tail (fargs args) parts 1421 (by simpa [fargs] using suits.number)
    (by
      intro f hf
      rw [template_fields, List.mem_map] at hf
      obtain ⟨s, hs, rfl⟩ := hf
      exact field_wellFormed (wide_digits suits s hs)) (wide_mode suits) (by simpa [fargs] using wide_arguments suits) hr hshape
    htail
  intro mem ops s old hs
  have hrep := span_reach hs
  have hle : old.length ≤ mem.length := by rw [SpanBuf.Rep.length hrep]; exact hrep.2.2.2.2.1
  obtain ⟨s', e1, e2⟩ := span_calls calls hfine s old hrep
  have hk := shaped_kept t.format.last t.format.segs parts calls (mem.length - old.length) hp
  have hm : t.format.segs.map (·.1) = t.segs.map (·.1) := by simp [Template.format]
  rw [hm] at hk
  refine ⟨s', ?_, ?_⟩
  · show formatTo (t.format.text ++ tail) (fargs args) s = _
    rw [hto, e1, hk]
    have hout : (segsOut t.format.segs (parts.map Parts.text) ++ t.format.last) = t.output (parts.map Parts.text) := rfl
    rw [hout]
    by_cases hc : (t.output (parts.map Parts.text)).length ≤ mem.length - old.length
    · rw [if_pos (by simpa using hc), if_pos (by omega)]
    · rw [if_neg (by simpa using hc), if_neg (by omega)]
  · have := e2.2.2.2.2.2
    rw [hk] at this
    exact this

/-- The same for every format string that can be formatted at all. -/
theorem C106_in_any_string (str : Str) (args : List CoreArg) (hn : args.length ≤ 128) (hv : ∀ a ∈ args, ValidArg a) (text : Str)
    (h : formatStr str (fargs args) = .ok () text) :
    ∃ (t : Template) (tail : Str) (parts : List Parts), str = t.text ++ tail ∧ (tail = [] ∨ Begins255 tail ∧ t.format.Explicit) ∧
      parts.length = t.segs.length ∧ AloneUpTo t args (parts.map Parts.text) ∧ text = t.output (parts.map Parts.text) ∧
      (∀ (i k : Nat) (s : Str × Hole) (a : CoreArg) (p : Parts), t.format.arguments[i]? = some k → t.segs[i]? = some s →
        args[k]? = some a → parts[i]? = some p → PartsOf a s.2.reduced.specs p) ∧
      ∀ (mem : Str) (ops : List ClientOp) (s : SpanBuf) (old : Str),
        client spanReset ops (SpanBuf.new mem, []) = some (s, old) →
        ∃ s', formatTo str (fargs args) s = (if old.length + text.length ≤ mem.length then .ok s' () else .err s' .eof) ∧
          s'.view = old ++ keptFields (mem.length - old.length) ((t.segs.map (·.1)).zip parts) t.last := by
  have acc : validateStr str (fargs args) = .ok () true := by
    obtain ⟨b, hb⟩ := C22_validation_total str args hn
    cases b with
    | true => exact hb
    | false =>
      rw [(C22_rejected_is_invalid_format str args hb).1] at h
      cases h
  obtain ⟨t, tail, rfl, pass, suits, htail⟩ := accepted_template_wide hn acc
  have hO : ∀ j, ¬ AsksO t args j := by
    intro j hj
    classical
    have hex : ∃ j, AsksO t args j := ⟨j, hj⟩
    obtain ⟨texts, _, _, hd⟩ := C22_accepted_with_O_fails t tail args pass suits htail hv (Nat.find hex) (Nat.find_spec hex)
      fun i hi => Nat.find_min hex hi
    have := hd.format
    rw [h] at this
    cases this
  obtain ⟨parts, h1, h2, h3, h4⟩ := C106_in_any_format t tail args pass suits htail hv hO
  have ht : text = t.output (parts.map Parts.text) := by
    obtain ⟨texts, g1, g2, g3⟩ := C22_accepted_without_O_succeeds t tail args pass suits htail hv hO
    have hf := g3.format
    rw [h] at hf
    have he : texts = parts.map Parts.text := by
      refine List.ext_getElem? fun i => ?_
      by_cases hi : i < t.segs.length
      · have hs : t.segs[i]? = some t.segs[i] := List.getElem?_eq_getElem hi
        have hk : t.format.arguments[i]? = some (t.format.arguments[i]'(by rw [arguments_length]; exact hi)) :=
          List.getElem?_eq_getElem _
        have e1 : texts[i]? = some (texts[i]'(by omega)) := List.getElem?_eq_getElem _
        have e2 : (parts.map Parts.text)[i]? = some ((parts.map Parts.text)[i]'(by simp; omega)) := List.getElem?_eq_getElem _
        obtain ⟨a, ha, ra⟩ := g2 i _ _ _ hk hs e1
        obtain ⟨b, hb, rb⟩ := h2 i _ _ _ hk hs e2
        rw [ha] at hb
        cases hb
        rw [ra] at rb
        rw [e1, e2, (ok_inj rb).2]
      · rw [List.getElem?_eq_none (by omega), List.getElem?_eq_none (by simp; omega)]
    rw [← he]
    exact (ok_inj hf).2
  subst ht
  exact ⟨t, tail, parts, rfl, htail, h1, h2, rfl, h3, h4⟩

/-- `"ab{:4}cd"` with `-12`: the fill characters may be cut from the number, the number may not be cut. -/
example : let p := intParts { width := 4 } (-12)
    keptFields 3 [("ab".toList, p)] "cd".toList = "ab ".toList ∧
    keptFields 5 [("ab".toList, p)] "cd".toList = "ab ".toList ∧
    keptFields 7 [("ab".toList, p)] "cd".toList = "ab -12c".toList := by decide +kernel

/-- The hypotheses are met, also with a precision above 2^31 and with ignored text behind. -/
example : wideExample.NumbersPass ∧ wideExample.reduced.Suits [.string "ab".toList] ∧
    (∀ a ∈ [CoreArg.string "ab".toList], ValidArg a) ∧ (∀ j, ¬ AsksO wideExample [.string "ab".toList] j) ∧
    formatStr wideExample.text (fargs [.string "ab".toList]) = .ok () "<ab>".toList ∧
    formatStr "{0}{255:{{".toList (fargs [.string "ab".toList]) = .ok () "ab".toList := by
  refine ⟨wideExample_pass, wideExample_suits, by simp only [List.mem_singleton, forall_eq]; unfold ValidArg; decide, ?_,
    by decide +kernel, by decide +kernel⟩
  rintro j ⟨k, s, a, _, hs, _, ht, _⟩
  have hs := List.mem_of_getElem? hs
  simp only [wideExample, List.mem_cons, List.not_mem_nil, or_false] at hs
  rcases hs with rfl
  exact absurd ht (by decide)

end Emio
