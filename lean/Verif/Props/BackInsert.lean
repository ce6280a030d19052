import Verif.Model.BackInsert
import Verif.Lemmas.BackInsert
import Verif.Props.AnyTypes
/-
Property C15: exactly what happens to a container that is written to through a back-insert iterator.
-/
namespace Emio
open Spec BufferImpl

/-- C15, exactly, for any container and any client: as long as the pieces fit (`backFits`), all requests are granted in full and
after a flush the container holds what was written *instead of* its previous content; otherwise the client runs into
undefined behaviour. -/
theorem C15_back_insert_exact (capacity : Nat) (chars : Str) (cap : Nat) (ops : List ClientOp) :
    ∃ s0 a, BackBuf.new capacity chars cap = .ok s0 a ∧
      if backFits (chars.length + min cap capacity) (chars.length + min cap capacity) 0 (ops.map piece) then
        ∃ s, client backFlush ops (s0, []) = some (s, clientText false ops []) ∧ s.flush.chars = clientText false ops []
      else client backFlush ops (s0, []) = none := by
  obtain ⟨s0, a, h0, hg⟩ := BackBuf.good_new capacity chars cap
  refine ⟨s0, a, h0, ?_⟩
  have hgo : ∀ (ops : List ClientOp) (size reach : Nat) (s : BackBuf) (t : Str), BackBuf.Good size reach s t →
      if backFits size reach t.length (ops.map piece) then
        ∃ s', client backFlush ops (s, t) = some (s', clientText false ops t) ∧ s'.flush.chars = clientText false ops t
      else client backFlush ops (s, t) = none := by
    intro ops
    induction ops with
    | nil =>
      intro size reach s t h
      rw [if_pos (by rfl)]
      exact ⟨s, rfl, h.flush.1⟩
    | cons op ops ih =>
      intro size reach s t h
      have write : ∀ d : Str, piece op = some d.length → clientText false (op :: ops) t = clientText false ops (t ++ d) →
          (∀ s', getWriteAreaOfMax d.length s = .ok s' ⟨t.length, d.length⟩ →
            op.step backFlush (s, t) = (store s' t.length d).map (·, t ++ d)) →
          if backFits size reach t.length ((op :: ops).map piece) then
            ∃ s', client backFlush (op :: ops) (s, t) = some (s', clientText false (op :: ops) t) ∧
              s'.flush.chars = clientText false (op :: ops) t
          else client backFlush (op :: ops) (s, t) = none := by
        intro d hp ht hstep
        obtain ⟨s', hm, hs⟩ := h.step d
        simp only [List.map_cons, hp, backFits, client, hstep s' hm, ht]
        by_cases hr : t.length + d.length ≤ reach
        · rw [if_pos hr] at hs ⊢
          by_cases hz : t.length + d.length ≤ size
          · rw [if_pos hz] at hs
            obtain ⟨s'', g1, g2⟩ := hs
            simp only [hz, decide_true, Bool.true_and, g1, Option.map_some, Option.bind_some]
            have := ih size reach s'' _ g2
            rwa [List.length_append] at this
          · rw [if_neg hz] at hs
            simp [hz, hs]
        · rw [if_neg hr] at hs ⊢
          obtain ⟨s'', g1, g2⟩ := hs
          simp only [g1, Option.map_some, Option.bind_some]
          have := ih _ _ s'' _ g2
          rwa [List.length_append] at this
      cases op with
      | exact d =>
        refine write d rfl rfl fun s' hm => ?_
        have hof : getWriteAreaOf d.length s = .ok s' ⟨t.length, d.length⟩ := by
          unfold getWriteAreaOf; rw [hm]; simp
        rw [ClientOp.step]
        simp only [hof, if_true]
      | upTo d =>
        refine write d rfl rfl fun s' hm => ?_
        rw [ClientOp.step]
        simp only [hm, Nat.le_refl, if_true, List.take_length]
      | special =>
        have := ih _ _ _ _ h.flush.2
        simp only [List.map_cons, piece, backFits, client, ClientOp.step, backFlush, Option.bind_some, clientText]
        exact this
  exact hgo ops _ _ s0 [] hg

/-- What fits into the container as it is does fit. -/
theorem backFits_of_le : ∀ (pieces : List Nat) (size written : Nat), written + pieces.sum ≤ size →
    backFits size size written (pieces.map some) = true := by
  intro pieces
  induction pieces with
  | nil => intros; rfl
  | cons n pieces ih =>
    intro size written h
    simp only [List.sum_cons] at h
    simp only [List.map_cons, backFits]
    rw [if_pos (by omega), decide_eq_true (by omega), Bool.true_and]
    exact ih size _ (by omega)

/-- A single piece always fits. -/
theorem backFits_single (size n : Nat) : backFits size size 0 [some n] = true := by
  unfold backFits
  split
  · rename_i h; rw [decide_eq_true (by omega)]; rfl
  · rfl

theorem Settled.back {str : Str} {args : List FArg} {text : Str} {fail : Option Err} (h : Settled str args text fail) :
    ∃ pieces : List Str, pieces.flatten = text ∧ ∀ (chars : Str) (cap : Nat),
      if backFits (chars.length + min cap 128) (chars.length + min cap 128) 0 (pieces.map fun p => some p.length) then
        (fail = none ∧ formatToBack chars cap str args = .ok text ()) ∨
        ∃ e rest, fail = some e ∧ formatToBack chars cap str args = .err (text ++ rest) e ∧
          chars.length + min cap 128 ≤ (text ++ rest).length
      else formatToBack chars cap str args = .bad .ub := by
  obtain ⟨ops, rfl, hf, hx⟩ := h
  refine ⟨ops.map WOp.text, by simp [render, List.flatMap], fun chars cap => ?_⟩
  obtain ⟨s0, a, h0, hg⟩ := BackBuf.good_new 128 chars cap
  have key := BackBuf.execAll_exact ops hf _ _ s0 [] hg
  simp only [List.map_map, Function.comp_def]
  unfold formatToBack
  rw [h0]
  simp only
  rw [hx s0]
  simp only [List.length_nil] at key
  split at key
  · rename_i hb
    rw [if_pos hb]
    obtain ⟨s', size', reach', g1, g2, g3⟩ := key
    rw [List.nil_append] at g2
    rw [M.bind_ok g1]
    cases fail with
    | none =>
      refine Or.inl ⟨rfl, ?_⟩
      show Run.ok s'.flush.chars () = _
      rw [g2.flush.1]
    | some e =>
      refine Or.inr ⟨e, s'.chars.drop (render ops).length, rfl, ?_, ?_⟩
      · show Run.err s'.chars e = _
        conv_lhs => rw [← List.take_append_drop (render ops).length s'.chars]
        rw [g2.text]
      · rw [List.length_append, List.length_drop, g2.length]
        have := g2.inside
        omega
  · rename_i hb
    rw [if_neg hb]
    have : (do execAll ops; stop fail : M BackBuf Unit) s0 = .bad .ub := by
      show M.bind _ _ s0 = _
      unfold M.bind
      rw [key]
    rw [this]

/-- C15 for `format_to(std::back_inserter(container), ...)`, any string and arguments of any types but tuples: there is a
way to cut the text that all other functions deliver into pieces such that for *every* container formatting goes well exactly
if the pieces fit.  It then leaves the text in the container, instead of the previous content; after an error the container
begins with the text up to the error and has not been cut to that length. -/
theorem C15_format_to_back_inserter (str : Str) (args : List (FTy × FVal)) (hlen : args.length ≤ 128)
    (hn : ∀ a ∈ args, NoTuple a.1) (hv : ∀ a ∈ args, HasType a.2 a.1) :
    ∃ (text : Str) (fail : Option Err), Delivers str (vargs args) text fail ∧
      ∃ pieces : List Str, pieces.flatten = text ∧ ∀ (chars : Str) (cap : Nat),
        if backFits (chars.length + min cap 128) (chars.length + min cap 128) 0 (pieces.map fun p => some p.length) then
          (fail = none ∧ formatToBack chars cap str (vargs args) = .ok text ()) ∨
          ∃ e rest, fail = some e ∧ formatToBack chars cap str (vargs args) = .err (text ++ rest) e ∧
            chars.length + min cap 128 ≤ (text ++ rest).length
        else formatToBack chars cap str (vargs args) = .bad .ub := by
  obtain ⟨text, fail, hs⟩ : ∃ text fail, Settled str (vargs args) text fail := by
    obtain ⟨b, hb⟩ := C61_validation_total str args hlen hn
    cases b with
    | true =>
      obtain ⟨text, fail, hs, _⟩ := settled_of_accepted (vargs_sound hn hv str) (vargs_tame hn) hb
      exact ⟨text, fail, hs⟩
    | false =>
      refine ⟨_, _, settled_of_refused hb ?_⟩
      intro hp
      have h0 : vargs args = [] := List.eq_nil_of_length_eq_zero hp.1
      rw [h0, plain_validates str hp.2] at hb
      cases hb
  exact ⟨text, fail, hs.delivers, hs.back⟩

/-- C15: enough room from the start is enough. -/
theorem C15_format_to_back_inserter_room (str : Str) (args : List (FTy × FVal)) (hlen : args.length ≤ 128)
    (hn : ∀ a ∈ args, NoTuple a.1) (hv : ∀ a ∈ args, HasType a.2 a.1) (text : Str)
    (h : formatStr str (vargs args) = .ok () text) (chars : Str) (cap : Nat) (room : text.length ≤ chars.length + min cap 128) :
    formatToBack chars cap str (vargs args) = .ok text () := by
  obtain ⟨text', fail, hd, pieces, hp, hall⟩ := C15_format_to_back_inserter str args hlen hn hv
  have hf := hd.format
  rw [h] at hf
  cases fail with
  | some e => cases hf
  | none =>
    cases hf
    have := hall chars cap
    rw [if_pos] at this
    · rcases this with ⟨_, h⟩ | ⟨e, _, he, _⟩
      · exact h
      · cases he
    · have h2 := backFits_of_le (pieces.map List.length) (chars.length + min cap 128) 0 (by
        rw [← hp, List.length_flatten] at room
        omega)
      simpa [List.map_map, Function.comp_def] using h2

/-- The full property C15 for `format_to`: the text is appended. -/
def FormatAppends : Prop :=
  ∀ (chars : Str) (cap : Nat) (str : Str) (args : List (FTy × FVal)) (text : Str), chars.length ≤ cap →
    (∀ a ∈ args, NoTuple a.1) → (∀ a ∈ args, HasType a.2 a.1) → formatStr str (vargs args) = .ok () text →
    formatToBack chars cap str (vargs args) = .ok (chars ++ text) ()

/-- C15 is violated: the previous content of the container is overwritten; writing outside of the container; null characters
in the container after an error. -/
theorem C15_format_to_back_inserter_violated : ¬ FormatAppends ∧
    formatToBack [] 15 "{:15}{:10}{:15}".toList (vargs [(.int, .int 1), (.int, .int 2), (.int, .int 3)]) = .bad .ub ∧
    formatToBack "ab".toList 2 "{".toList [] = .err "ab\x00\x00".toList .invalidFormat := by
  refine ⟨fun h => ?_, by decide +kernel, by decide +kernel⟩
  have h1 : formatToBack "abc".toList 15 "12".toList [] = .ok "12".toList () := by decide +kernel
  have h2 := h "abc".toList 15 "12".toList [] "12".toList (by decide) (by simp) (by simp) (by decide +kernel)
  rw [show vargs [] = [] from rfl, h1] at h2
  cases h2

/-- The hypotheses are met, also with content and with growth. -/
example : backFits 18 18 0 ([.exact (List.replicate 10 'a'), .upTo (List.replicate 20 'b'), .exact (List.replicate 8 'c')].map piece) =
      true ∧
    backFits 18 18 0 ([.exact (List.replicate 10 'a'), .upTo (List.replicate 20 'b'), .exact (List.replicate 9 'c')].map piece) =
      false ∧
    formatToBack "abc".toList 15 "{}={::x}".toList (vargs [(.int, .int 5), (.seq .int, .range [.int 10, .int 11])]) =
      .ok "5=[a, b]".toList () := by decide +kernel

end Emio
