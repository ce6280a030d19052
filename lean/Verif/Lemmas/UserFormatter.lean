import Verif.Spec.UserFormatter
import Verif.Lemmas.Dynamic
import Verif.Lemmas.Settled
import Verif.Lemmas.ScanTemplate
/-
Formatters of users.
-/
namespace Emio
open Reader Spec BufferImpl

/-! ### Arguments -/

theorem builtin_reads {a : AnyArg} {s text : Str} (hty : a.Typed) (ht : ¬ a.HasTuple) (hta : a.Takes s)
    (hal : formatStr ('{' :: ':' :: (s ++ ['}'])) [a.farg] = .ok () text) : a.farg.Reads (s ++ ['}']) text 1421 := by
  intro r tail
  revert r
  show a.farg.ReadsBefore _ _ _ tail
  cases a with
  | value ty v =>
    refine value_readsBefore coreEmits_written (by decide) hty hta ((alone_iff hty hta).1 hal) ?_
    by_cases hn : NoTuple ty
    · exact Or.inl hn
    · exact absurd hn ht
  | dynamic ty v w p =>
    obtain ⟨h1, h2, h3⟩ := hty
    obtain ⟨s', hta⟩ := hta
    exact dynamic_readsBefore h2 h3 hta h1 hal
  | nested str as =>
    obtain ⟨h1, h2⟩ := hty
    have hs0 : s = [] := hta
    subst hs0
    have hst : formatStr str (as.map fun a => a.2.farg a.1) = .ok () text := by
      rw [← hal]
      exact formatStr_congr (fun b => (nested_alone true str _ b).symm)
    refine nested_readsBefore (E := 'O' ∈ str) (by decide) ?_ ?_ hst
    · intro a ha
      obtain ⟨c, hc, rfl⟩ := List.mem_map.1 ha
      exact value_sound (h2 c hc) (h1 c hc) str
    · intro a ha
      obtain ⟨c, hc, rfl⟩ := List.mem_map.1 ha
      exact value_tame (h2 c hc) c.2

theorem FArg.Reads.mono {a : FArg} {body text : Str} {k k' : Nat} (h : a.Reads body text k) (hk : k ≤ k') :
    a.Reads body text k' := by
  intro r tail hat
  obtain ⟨h1, act, h2, h3⟩ := h r tail hat
  refine ⟨h1, act, h2, fun ops => ?_⟩
  obtain ⟨new, g1, g2, g3, g4⟩ := h3 ops
  exact ⟨new, g1, g2, g3, fun op ho => Nat.le_trans (g4 op ho) hk⟩

theorem check_validates {α : Type} {f : UserFormatter α} {spec tail : Str} {r : Reader}
    (h : ∀ validate ∈ f.validate, ∀ (r : Reader) (tail : Str), r.At (spec ++ '}' :: tail) →
      validate r = .ok (r.adv (spec.length + 1)) ())
    (h' : ∃ s, f.parse r = .ok (r.adv (spec.length + 1)) s) (hat : r.At (spec ++ '}' :: tail)) :
    f.check r = .ok (r.adv (spec.length + 1)) () := by
  unfold UserFormatter.check
  cases hv : f.validate with
  | some v => exact h v (by rw [hv]; rfl) r tail hat
  | none =>
    obtain ⟨s, hs⟩ := h'
    simp only
    rw [M.bind_ok hs]
    rfl

theorem custom_reads {α : Type} {f : UserFormatter α} {v : α} {spec text : Str} {k : Nat} (h : Spec.Makes f v spec text k) :
    (f.farg v).Reads (spec ++ ['}']) text k := by
  intro r tail hat
  have hat' : r.At (spec ++ '}' :: tail) := by simpa using hat
  obtain ⟨s, h1, h2⟩ := h.parses r tail hat'
  have hl : (spec ++ ['}']).length = spec.length + 1 := by simp
  rw [hl]
  refine ⟨check_validates h.validates ⟨s, h1⟩ hat', _, ?_, h2⟩
  show (do let s ← f.parse; return f.format s v : M Reader (Fmt Unit)) r = _
  rw [M.bind_ok h1]
  rfl

theorem custom_balks {α : Type} {f : UserFormatter α} {v : α} {spec text : Str} {e : Err} (h : Spec.Reports f v spec text e) :
    (f.farg v).Balks (spec ++ ['}']) text e := by
  intro r tail hat
  have hat' : r.At (spec ++ '}' :: tail) := by simpa using hat
  obtain ⟨s, h1, h2⟩ := h.parses r tail hat'
  have hl : (spec ++ ['}']).length = spec.length + 1 := by simp
  rw [hl]
  refine ⟨_, ?_, h2⟩
  show (do let s ← f.parse; return f.format s v : M Reader (Fmt Unit)) r = _
  rw [M.bind_ok h1]
  rfl

theorem passed_reads {a : Passed} {spec text : Str} {k : Nat} (h : a.Makes spec text k) :
    a.farg.Reads (spec ++ ['}']) text k := by
  cases a with
  | builtin a =>
    obtain ⟨h1, h2, h3, h4, h5⟩ := h
    exact (builtin_reads h1 h2 h3 h5).mono h4
  | custom f v => exact custom_reads h

/-! ### Format strings -/

theorem Formats.settled {str : Str} {args : List FArg} {text : Str} {k : Nat} (h : Formats str args text k) :
    Settled str args text none := by
  obtain ⟨ops, h1, h2, h3⟩ := h
  refine ⟨ops, h1, fun op ho => (h2 op ho).1, fun s => ?_⟩
  rw [h3]
  show _ = M.bind _ _ s
  unfold M.bind
  generalize execAll ops s = x
  cases x <;> rfl

/-- The argument accepts `body`, wherever it is. -/
def FArg.Admits (a : FArg) (body : Str) : Prop :=
  ∀ r tail, r.At (body ++ tail) → a.validate r = .ok (r.adv body.length) ()

/-- An argument that is validated like `a` and formatted as nothing. -/
def FArg.mute (a : FArg) : FArg where
  validate := a.validate
  parse := do
    a.validate
    return pure ()

theorem mute_reads {a : FArg} {body : Str} (h : a.Admits body) : a.mute.Reads body [] 0 := by
  intro r tail hat
  have h1 := h r tail hat
  refine ⟨h1, pure (), ?_, fun ops => ⟨[], by simp, rfl, by simp, by simp⟩⟩
  show (do a.validate; return pure () : M Reader (Fmt Unit)) r = _
  rw [M.bind_ok h1]
  rfl

theorem fields_validate {t : FormatText} {args : List FArg} (hlen : args.length ≤ 128)
    (wf : ∀ f ∈ t.fields, f.WellFormed) (mode : t.Automatic ∨ t.Explicit)
    (hargs : ∀ k, k ∈ t.arguments ↔ k < args.length)
    (h : ∀ (i : Nat) (f : Field), t.fields[i]? = some f → ∃ a, args[f.argument i]? = some a ∧ a.Admits f.body) :
    validateStr t.text args = .ok () true := by
  unfold validateStr
  rw [validateLoop_congr (args' := args.map FArg.mute) (by simp [FArg.mute])]
  have hmode : ModeOk none t.fields := by
    rcases mode with h | h
    · exact Or.inl ⟨h, by simp⟩
    · exact Or.inr ⟨h, by simp⟩
  have hreads : ReadsSegs (args.map FArg.mute) 0 t.last 0 t.segs (t.segs.map fun _ => []) := by
    refine readsSegs_of _ _ _ (by simp) ?_
    intro j s text hj ht
    obtain ⟨a, ha, had⟩ := h j s.2 (by simp [FormatText.fields, hj])
    refine ⟨a.mute, by simp [ha], ?_⟩
    have : text = [] := by rw [List.getElem?_map, hj] at ht; simpa using ht.symm
    rw [this]
    exact fun r hat => mute_reads had r _ hat
  obtain ⟨⟨b, hb, hb'⟩, _⟩ := loop_forward_segs (args.map FArg.mute) (by simpa using hlen) 0 t.last
    t.segs (t.segs.map fun _ => []) (t.text.length + 1) ⟨Reader.ofStr t.text, none, 0⟩ (Bitset.new 128) [] []
    (Bitset.rep_new 128) rfl (Reader.at_ofStr _)
    (by have := segs_length_le t; omega) (fun s hs => wf s.2 (List.mem_map_of_mem hs)) hmode (by simp)
    (fun k hk => by simpa using (hargs k).1 (by rw [argsFrom_eq]; exact hk)) hreads
  rw [hb]
  congr 1
  refine hb'.2 fun k hk => Or.inr ?_
  have hk : k < args.length := by simpa using hk
  rw [← hargs k, argsFrom_eq] at hk
  exact hk

theorem argsFrom_at : ∀ (fs : List Field) (i n : Nat), (argsFrom i fs)[n]? = fs[n]?.map (·.argument (i + n)) := by
  intro fs
  induction fs with
  | nil => simp [argsFrom]
  | cons f fs ih =>
    intro i n
    cases n with
    | zero => simp [argsFrom]
    | succ n =>
      rw [argsFrom, List.getElem?_cons_succ, List.getElem?_cons_succ, ih]
      have : i + 1 + n = i + (n + 1) := by omega
      rw [this]

theorem settled_of_stop {str : Str} {args : List FArg} {s : FSt} {e : Err} (hv : validateStr str args = .ok () true)
    (hp : ¬ (args.length = 0 ∧ checkIfPlainString str = true))
    (h : formatLoop args (str.length + 1) ⟨⟨Reader.ofStr str, none, 0⟩, []⟩ = .err s e)
    (hf : ∀ op ∈ s.ops, op.Fine) : Settled str args (render s.ops) (some e) := by
  refine ⟨s.ops, rfl, hf, fun {σ} _ st => ?_⟩
  have hto : formatTo str args st = runOn (formatRun str args) st := by
    unfold formatTo VStr.make
    rw [if_neg hp, hv]
    rfl
  rw [hto]
  unfold runOn formatRun
  rw [h]
  simp only
  generalize hx : execAll s.ops st = x
  cases x with
  | ok s' u => rw [M.bind_ok hx]; rfl
  | err s' e => rw [M.bind_err hx]
  | bad b => rw [M.bind_bad hx]

/-- A format string that is accepted, with a field that cannot be formatted. -/
theorem settled_at_stop (t : FormatText) (args : List FArg) (texts : List Str) (j k : Nat) (stop : Str) (e : Err)
    (hlen : args.length ≤ 128)
    (wf : ∀ f ∈ t.fields, f.WellFormed) (mode : t.Automatic ∨ t.Explicit)
    (hargs : ∀ k, k ∈ t.arguments ↔ k < args.length)
    (hval : ∀ (i : Nat) (f : Field), t.fields[i]? = some f → ∃ a, args[f.argument i]? = some a ∧ a.Admits f.body)
    (ht : texts.length = j)
    (hread : ∀ (i : Nat) (f : Field) (text : Str), i < j → t.fields[i]? = some f → texts[i]? = some text →
      ∃ a, args[f.argument i]? = some a ∧ a.Reads f.body text k)
    (s : Str × Field) (hs : t.segs[j]? = some s)
    (hstop : ∃ a, args[s.2.argument j]? = some a ∧ a.Balks s.2.body stop e) :
    Settled t.text args (segsOut (t.segs.take j) texts ++ s.1 ++ stop) (some e) := by
  have hlt : j < t.segs.length := (List.getElem?_eq_some_iff.1 hs).1
  have hsplit : t.segs = t.segs.take j ++ [s] ++ t.segs.drop (j + 1) := by
    obtain ⟨hl, hj⟩ := List.getElem?_eq_some_iff.1 hs
    rw [← hj, List.append_assoc, List.singleton_append, List.getElem_cons_drop, List.take_append_drop]
  have hfields : t.fields = (t.segs.take j ++ [s]).map (·.2) ++ (t.segs.drop (j + 1)).map (·.2) := by
    show t.segs.map (·.2) = _
    rw [← List.map_append, ← hsplit]
  have htext : t.text = segsText (t.segs.take j ++ [s]) ++ (segsText (t.segs.drop (j + 1)) ++ escBraces t.last) := by
    show segsText t.segs ++ escBraces t.last = _
    rw [← List.append_assoc]
    congr 1
    unfold segsText
    rw [← List.flatMap_append, ← hsplit]
  have hmode : ModeOk none t.fields := by
    rcases mode with h | h
    · exact Or.inl ⟨h, by simp⟩
    · exact Or.inr ⟨h, by simp⟩
  have hjl : (t.segs.take j).length = j := by simp; omega
  have hreads : ReadsAll args k 0 ((t.segs.take j).map (·.2)) texts := by
    apply readsAll_of
    · simp [ht]; omega
    · intro x hx
      obtain ⟨i, hi⟩ := List.mem_iff_getElem?.1 hx
      rw [List.getElem?_zip_eq_some, List.getElem?_zip_eq_some, argsFrom_at] at hi
      obtain ⟨⟨h1, h2⟩, h3⟩ := hi
      have hij : i < j := by rw [← ht]; exact (List.getElem?_eq_some_iff.1 h3).1
      rw [List.getElem?_map, List.getElem?_take_of_lt hij] at h1 h2
      cases hsi : t.segs[i]? with
      | none => rw [hsi] at h2; simp at h2
      | some s' =>
        rw [hsi] at h1 h2
        simp only [Option.map_some, Option.some.injEq, Nat.zero_add] at h1 h2
        obtain ⟨a, ha, hr⟩ := hread i s'.2 x.2 hij (by simp [FormatText.fields, hsi]) h3
        exact ⟨a, by rw [← h1]; exact ha, by rw [← h2]; exact hr⟩
  obtain ⟨a, ha, hb⟩ := hstop
  obtain ⟨st, new, g1, g2, g3, g4⟩ := loop_stops args hlen k
    (segsText (t.segs.drop (j + 1)) ++ escBraces t.last) s.1 s.2 stop e (t.segs.take j) texts
    (t.text.length + 1) ⟨Reader.ofStr t.text, none, 0⟩ [] (by rw [← htext]; exact Reader.at_ofStr _)
    (by have := segs_length_le t; omega)
    (fun x hx => wf x.2 (by rw [hfields]; exact List.mem_append_left _ (List.mem_map_of_mem hx)))
    (by
      rw [hfields] at hmode
      rcases hmode with ⟨h, h'⟩ | ⟨h, h'⟩
      · exact Or.inl ⟨fun f hf => h f (List.mem_append_left _ hf), h'⟩
      · exact Or.inr ⟨fun f hf => h f (List.mem_append_left _ hf), h'⟩)
    (by
      intro n hn
      obtain ⟨i, hi⟩ := List.mem_iff_getElem?.1 hn
      rw [argsFrom_at] at hi
      refine (hargs n).1 ?_
      rw [argsFrom_eq, hfields]
      refine List.mem_of_getElem? (i := i) ?_
      rw [argsFrom_at, List.getElem?_append_left, hi]
      by_contra hge
      rw [List.getElem?_eq_none (by simp only [List.length_map, List.length_append, List.length_singleton] at hge ⊢; omega)] at hi
      simp at hi)
    hreads ⟨a, by simpa [hjl] using ha, hb⟩
  have hp : ¬ (args.length = 0 ∧ checkIfPlainString t.text = true) := by
    rintro ⟨hp, _⟩
    rw [List.eq_nil_of_length_eq_zero hp] at ha
    simp at ha
  have hset := settled_of_stop (fields_validate hlen wf mode hargs hval) hp g1
    (by rw [g2]; exact fun op ho => g4 op (by simpa using ho))
  rw [g2, List.nil_append, g3] at hset
  exact hset

/-! ### Any string -/

/-- Validation and parsing agree, and formatting comes to an end. -/
def FArg.Agrees (a : FArg) (errs : Err → Prop) : Prop :=
  ∀ r r', r.Inv → a.validate r = .ok r' () → ∃ act, a.parse r = .ok r' act ∧
    ∀ ops, ∃ new, (∀ op ∈ new, op.Fine) ∧ (act ops = .ok (ops ++ new) () ∨ ∃ e, errs e ∧ act ops = .err (ops ++ new) e)

theorem loop_agrees (args : List FArg) (errs : Err → Prop) (hs : ∀ a ∈ args, a.Agrees errs) (ht : ∀ a ∈ args, a.Forward) :
    ∀ (fuel : Nat) (p : PSt) (matched : Bitset) (ops : List WOp), p.rdr.Inv →
      validateLoop args fuel p matched = .ok () true →
      ∃ f new, f.ops = ops ++ new ∧ (∀ op ∈ new, op.Fine) ∧
        (formatLoop args fuel ⟨p, ops⟩ = .ok f () ∨ ∃ e, errs e ∧ formatLoop args fuel ⟨p, ops⟩ = .err f e) := by
  intro fuel
  induction fuel with
  | zero => intro p matched ops _ h; simp [validateLoop] at h
  | succ fuel ih =>
    intro p matched ops hi h
    rw [validateLoop] at h
    have hpc : ∀ pieces : List Str, ∀ op ∈ pieces.map WOp.str, op.Fine := fun pieces op ho => (map_str_fine pieces op ho).1
    cases hp : Checked.parse p with
    | bad b => rw [hp] at h; simp at h
    | err p' e => rw [hp] at h; simp at h
    | ok p' n =>
      rw [hp] at h
      simp only at h
      rw [formatLoop]
      rcases parse_inv hi hp with ⟨lit, hat, rfl, rfl, hu⟩ | ⟨lit, idx, colon, rest, hat, hh, hb, hu⟩
      · obtain ⟨pieces, g1, g2⟩ := hu ops
        rw [M.bind_ok g1, if_pos rfl]
        exact ⟨_, pieces.map WOp.str, rfl, hpc pieces, Or.inl rfl⟩
      · obtain ⟨pieces, g1, g2⟩ := hu ops
        rw [M.bind_ok g1]
        by_cases hn : n = noMoreArgs
        · rw [if_pos hn]
          exact ⟨_, pieces.map WOp.str, rfl, hpc pieces, Or.inl rfl⟩
        · rw [if_neg hn] at h ⊢
          split at h
          · simp at h
          · cases hset : matched.set n with
            | none => rw [hset] at h; simp at h
            | some m' =>
              rw [hset] at h
              simp only at h
              cases ha : args[n]? with
              | none => rw [ha] at h; simp at h
              | some a =>
                rw [ha] at h
                simp only at h ⊢
                have hmem := List.mem_of_getElem? ha
                obtain ⟨hat', hadv⟩ := parse_field_at hat hh
                cases hv : a.validate p'.rdr with
                | bad b => rw [hv] at h; simp at h
                | err r e => rw [hv] at h; simp at h
                | ok r u =>
                  rw [hv] at h
                  simp only at h
                  obtain ⟨act, hparse, hem⟩ := hs a hmem p'.rdr _ hat'.1 hv
                  obtain ⟨n2, e2, e3 | ⟨e, he, e3⟩⟩ := hem (ops ++ pieces.map WOp.str)
                  · have hpa : processArg a ⟨p', ops ++ pieces.map WOp.str⟩ =
                        .ok ⟨{ p' with rdr := r }, ops ++ pieces.map WOp.str ++ n2⟩ () := by
                      unfold processArg
                      simp only [hparse, e3]
                    rw [M.bind_ok hpa]
                    have hri : r.Inv := by
                      rcases ht a hmem p'.rdr hat'.1 with ⟨r1, e1, he⟩ | ⟨body, tail, hbat, hok⟩
                      · rw [he] at hv; simp at hv
                      · rw [hok] at hv
                        obtain ⟨rfl, _⟩ := ok_inj hv
                        exact hbat.adv.1
                    obtain ⟨f, new, h2, h3, h1⟩ := ih { p' with rdr := r } m' (ops ++ pieces.map WOp.str ++ n2) hri h
                    refine ⟨f, pieces.map WOp.str ++ n2 ++ new, by rw [h2]; simp, ?_, h1⟩
                    intro op ho
                    simp only [List.mem_append] at ho
                    rcases ho with (ho | ho) | ho
                    · exact hpc pieces op ho
                    · exact e2 op ho
                    · exact h3 op ho
                  · have hpa : processArg a ⟨p', ops ++ pieces.map WOp.str⟩ =
                        .err ⟨{ p' with rdr := r }, ops ++ pieces.map WOp.str ++ n2⟩ e := by
                      unfold processArg
                      simp only [hparse, e3]
                    rw [M.bind_err hpa]
                    refine ⟨_, pieces.map WOp.str ++ n2, by simp only [List.append_assoc], ?_, Or.inr ⟨e, he, rfl⟩⟩
                    intro op ho
                    simp only [List.mem_append] at ho
                    rcases ho with ho | ho
                    · exact hpc pieces op ho
                    · exact e2 op ho

theorem settled_of_agrees {str : Str} {args : List FArg} {errs : Err → Prop} (hs : ∀ a ∈ args, a.Agrees errs)
    (ht : ∀ a ∈ args, a.Forward) (hv : validateStr str args = .ok () true) :
    ∃ text fail, Settled str args text fail ∧ ∀ e ∈ fail, errs e := by
  by_cases hp : args.length = 0 ∧ checkIfPlainString str = true
  · refine ⟨str, none, Formats.settled (k := 0) ⟨[.str str], ?_, ?_, ?_⟩, by simp⟩
    · simp [render, WOp.text]
    · simpa using map_str_fine [str]
    · intro σ _ s
      rw [execAll_single]
      unfold formatTo VStr.make
      rw [if_pos hp]
      rfl
  · obtain ⟨f, new, h1, h2, h3⟩ := loop_agrees args errs hs ht (str.length + 1) ⟨Reader.ofStr str, none, 0⟩
      (Bitset.new 128) [] (Reader.at_ofStr _).1 hv
    rw [List.nil_append] at h1
    rcases h3 with h3 | ⟨e, he, h3⟩
    · refine ⟨render f.ops, none, ⟨f.ops, rfl, by rw [h1]; exact h2, fun {σ} _ st => ?_⟩, by simp⟩
      have hto : formatTo str args st = runOn (formatRun str args) st := by
        unfold formatTo VStr.make
        rw [if_neg hp, hv]
        rfl
      rw [hto]
      unfold runOn formatRun
      rw [h3]
      simp only
      generalize hx : execAll f.ops st = x
      cases x with
      | ok s' u => rw [M.bind_ok hx]; rfl
      | err s' e => rw [M.bind_err hx]
      | bad b => rw [M.bind_bad hx]
    · exact ⟨_, some e, settled_of_stop hv hp h3 (by rw [h1]; exact h2), by rintro e' ⟨⟩; exact he⟩

theorem custom_forward {α : Type} {f : UserFormatter α} {v : α} {errs : Err → Prop} (h : Decent f v errs) :
    (f.farg v).Forward := by
  intro r hr
  rcases h.ends r hr with h | ⟨n, hn, h⟩
  · exact Or.inl h
  · right
    refine ⟨r.rest.take n, r.rest.drop n, ⟨hr, by rw [List.take_append_drop]⟩, ?_⟩
    rw [List.length_take, Nat.min_eq_left hn]
    exact h

theorem custom_agrees {α : Type} {f : UserFormatter α} {v : α} {errs : Err → Prop} (h : Decent f v errs) :
    (f.farg v).Agrees errs := by
  intro r r' hr hv
  have hv : f.check r = .ok r' () := hv
  obtain ⟨s, hs⟩ : ∃ s, f.parse r = .ok r' s := by
    unfold UserFormatter.check at hv
    cases hval : f.validate with
    | some c =>
      rw [hval] at hv
      exact h.agrees c hval r r' hr hv
    | none =>
      rw [hval] at hv
      simp only at hv
      cases hp : f.parse r with
      | ok r1 s =>
        rw [M.bind_ok hp] at hv
        obtain ⟨rfl, _⟩ := ok_inj hv
        exact ⟨s, rfl⟩
      | err r1 e => rw [M.bind_err hp] at hv; cases hv
      | bad b => rw [M.bind_bad hp] at hv; cases hv
  refine ⟨f.format s v, ?_, h.writes s⟩
  show (do let s ← f.parse; return f.format s v : M Reader (Fmt Unit)) r = _
  rw [M.bind_ok hs]
  rfl

theorem tame_agrees {a : FArg} {k : Nat} {E : Str → Prop} (hs : ∀ src, a.Sound src k (E src)) : a.Agrees (· = .invalidFormat) := by
  intro r r' hr hv
  obtain ⟨act, h1, h2⟩ := hs r.src r r' rfl hr hv
  refine ⟨act, h1, fun ops => ?_⟩
  rcases h2 with ⟨_, h2⟩ | ⟨text, h2⟩
  · obtain ⟨new, e, g1, g2, g3⟩ := h2 ops
    exact ⟨new, fun op ho => (g3 op ho).1, Or.inr ⟨e, g2, g1⟩⟩
  · obtain ⟨new, g1, _, g3, _⟩ := h2 ops
    exact ⟨new, g3, Or.inl g1⟩

end Emio
