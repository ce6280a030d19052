import Verif.Lemmas.ArgsStorage
/-
C74: arguments stored with `make_format_args` and used later.
-/
namespace Emio
open Spec

/-- Formatting with stored arguments is the same as formatting, then, what the arguments stand for: scalars with the value
they had when they were stored, characters and objects as they are now.  On every buffer, for every format string. -/
theorem C74_stored_arguments (before now : Memory) (str : Str) (refs : List ArgRef) (vals : List (FTy × FVal))
    (stand : List.Forall₂ (ArgRef.StandsFor before now) refs vals) {σ : Type} [BufferImpl σ] (s : σ) :
    formatLater before now str refs s = formatTo str (vals.map fun x => x.2.farg x.1) s := by
  have : ∃ as, storeAll before refs = some as ∧ as.map StoredArg.ty = refs.map ArgRef.ty ∧
      as.map (StoredArg.farg now) = vals.map fun x => x.2.farg x.1 := by
    induction stand with
    | nil => exact ⟨[], rfl, rfl, rfl⟩
    | @cons r x refs vals h _ ih =>
      obtain ⟨as, h1, h2, h3⟩ := ih
      obtain ⟨g1, a, g2, g3, g4⟩ := stands_store h
      refine ⟨a :: as, by simp [storeAll, g2, h1], by simp [h2, g1, g3], ?_⟩
      simp only [List.map_cons, h3]
      congr 1
      unfold StoredArg.farg
      rw [g4, g3]
  obtain ⟨as, h1, h2, h3⟩ := this
  rw [formatLater_eq h1 h2, h3]

/-- Scalars only: nothing that happens to the memory between storing and formatting matters. -/
theorem C74_scalars (before now later : Memory) (str : Str) (refs : List ArgRef)
    (scalars : ∀ r ∈ refs, ∃ addr t, r = .scalar addr t) {σ : Type} [BufferImpl σ] (s : σ) :
    formatLater before now str refs s = formatLater before later str refs s := by
  have : ∀ (refs : List ArgRef), (∀ r ∈ refs, ∃ addr t, r = .scalar addr t) → ∀ as, storeAll before refs = some as →
      as.map (StoredArg.farg now) = as.map (StoredArg.farg later) := by
    intro refs
    induction refs with
    | nil => intro _ as h; cases h; rfl
    | cons r refs ih =>
      intro hr as h
      obtain ⟨addr, t, rfl⟩ := hr r (by simp)
      rw [storeAll] at h
      split at h
      · rename_i a as' ha has
        cases h
        simp only [List.map_cons]
        rw [ih (fun r h => hr r (by simp [h])) _ has]
        congr 1
        simp only [ArgRef.store] at ha
        split at ha
        · split at ha
          · cases ha; rfl
          · cases ha
        · cases ha
      · cases h
  unfold formatLater ArgsStorage.make
  cases VStr.make str (refs.map fun r => r.ty.validationArg) with
  | ok u vs =>
    cases hs : storeAll before refs with
    | some as => simp only [ArgsStorage.formatTo, this refs scalars as hs]
    | none => rfl
  | err u e => rfl
  | bad b => rfl

/-- Two variables, a text and a vector.  The memory when they are stored … -/
private def before : Memory := fun addr =>
  [.scalar (.int i32 1), .chars "one\x00more".toList, .value (.range [.int 1])][addr]?

/-- … and when they are used: everything has been assigned something else. -/
private def now : Memory := fun addr =>
  [.scalar (.int i32 2), .chars "twentytwo".toList, .value (.range [.int 2, .int 22])][addr]?

example {σ : Type} [BufferImpl σ] (s : σ) :
    formatLater before now "{} {} {}".toList [.scalar 0 (.int i32), .cstr 1 0, .object 2 (.seq .int)] s =
    formatTo "{} {} {}".toList [(FVal.int 1).farg .int, (FVal.string "twe").farg .string,
      (FVal.range [.int 2, .int 22]).farg (.seq .int)] s := by
  refine C74_stored_arguments before now _ _ [(.int, .int 1), (.string, .string "twe"), (.seq .int, .range [.int 2, .int 22])]
    (.cons ?_ (.cons ?_ (.cons ?_ .nil))) _
  · exact .scalar (a := .int i32 1) rfl
  · exact .cstr (front := []) (text := "one".toList) (rest := "more".toList) (front' := []) (rest' := "ntytwo".toList)
      rfl (by decide) rfl rfl rfl
  · exact .object rfl

/-- A variable that does not exist anymore. -/
example {σ : Type} [BufferImpl σ] (s : σ) :
    formatLater before (fun _ => none) "{}".toList [.scalar 0 (.int i32)] s =
      formatTo "{}".toList [(FVal.int 1).farg .int] s := by
  rw [C74_scalars before _ before _ _ (by simp)]
  exact C74_stored_arguments before before _ _ [(.int, .int 1)] (.cons (.scalar (a := .int i32 1) rfl) .nil) _

/-- Everything that is not a scalar must still be there: an accepted format string uses every argument, so that
formatting does not succeed if one is gone (types without tuples).  Unless another argument is reported as an error
first, which needs an `O` in the format string, the behaviour is undefined. -/
theorem C74_dangling (before now : Memory) (str : Str) (refs : List ArgRef)
    (each : ∀ r ∈ refs, NoTuple r.ty ∧ (r.Dangles before now ∨ ∃ v, r.StandsFor before now (r.ty, v) ∧ HasType v r.ty))
    (gone : ∃ r ∈ refs, r.Dangles before now)
    (accepted : ∃ st, ArgsStorage.make before str refs = .ok () st ∧ st.str.str = some str) {σ : Type} [BufferImpl σ] (s : σ) :
    (∀ s', formatLater before now str refs s ≠ .ok s' ()) ∧
      ('O' ∉ str → formatLater before now str refs s = .bad .ub) := by
  have hstore : ∀ (refs : List ArgRef), (∀ r ∈ refs, NoTuple r.ty ∧ (r.Dangles before now ∨
      ∃ v, r.StandsFor before now (r.ty, v) ∧ HasType v r.ty)) →
      ∃ as, storeAll before refs = some as ∧ as.map StoredArg.ty = refs.map ArgRef.ty ∧
        (∀ a ∈ as, NoTuple a.ty ∧ (a.value now = none ∨ ∃ v, a.value now = some v ∧ HasType v a.ty)) ∧
        ((∃ r ∈ refs, r.Dangles before now) → ∃ a ∈ as, a.value now = none) := by
    intro refs
    induction refs with
    | nil => intro _; exact ⟨[], rfl, rfl, by simp, by simp⟩
    | cons r refs ih =>
      intro h
      obtain ⟨as, h1, h2, h3, h4⟩ := ih (fun r hr => h r (by simp [hr]))
      obtain ⟨hnt, hr⟩ := h r (by simp)
      rcases hr with hd | ⟨v, hs, hv⟩
      · obtain ⟨a, g1, g2, g3⟩ := dangles_store hd
        refine ⟨a :: as, by simp [storeAll, g1, h1], by simp [h2, g2], ?_, fun _ => ⟨a, by simp, g3⟩⟩
        intro b hb
        rcases List.mem_cons.1 hb with rfl | hb
        · exact ⟨by rw [g2]; exact hnt, Or.inl g3⟩
        · exact h3 b hb
      · obtain ⟨-, a, g1, g2, g3⟩ := stands_store hs
        refine ⟨a :: as, by simp [storeAll, g1, h1], by simp [h2, g2], ?_, ?_⟩
        · intro b hb
          rcases List.mem_cons.1 hb with rfl | hb
          · exact ⟨by rw [g2]; exact hnt, Or.inr ⟨v, g3, by rw [g2]; exact hv⟩⟩
          · exact h3 b hb
        · rintro ⟨r', hr', hd⟩
          rcases List.mem_cons.1 hr' with rfl | hr'
          · obtain ⟨a', g1', _, g3'⟩ := dangles_store hd
            rw [g1] at g1'
            cases g1'
            rw [g3] at g3'
            cases g3'
          · obtain ⟨a', ha', hn⟩ := h4 ⟨r', hr', hd⟩
            exact ⟨a', by simp [ha'], hn⟩
  obtain ⟨as, h1, h2, h3, h4⟩ := hstore refs each
  obtain ⟨a, ha, hnone⟩ := h4 gone
  rw [formatLater_eq h1 h2]
  have hval : ∀ a : StoredArg, (a.farg now).validate = a.ty.validate := by
    intro a
    unfold StoredArg.farg
    cases a.value now <;> rfl
  have hlen : (as.map (StoredArg.farg now)).length ≠ 0 := by
    have := List.length_pos_of_mem ha
    simp; rintro rfl; simp at this
  have hmake : VStr.make str (as.map (StoredArg.farg now)) = .ok () ⟨false, some str⟩ ∧
      validateStr str (as.map (StoredArg.farg now)) = .ok () true := by
    obtain ⟨st, g1, g2⟩ := accepted
    unfold ArgsStorage.make at g1
    rw [make_congr (args' := as.map (StoredArg.farg now))] at g1
    · unfold VStr.make at g1 ⊢
      rw [if_neg (by tauto)] at g1 ⊢
      cases hx : validateStr str (as.map (StoredArg.farg now)) with
      | ok u b =>
        cases b with
        | true => exact ⟨rfl, rfl⟩
        | false =>
          rw [hx, h1] at g1
          simp only [Run.ok.injEq, true_and] at g1
          rw [← g1] at g2
          cases g2
      | err u e => rw [hx] at g1; cases g1
      | bad b => rw [hx] at g1; cases g1
    · have e1 : (FArg.validate ∘ fun r : ArgRef => r.ty.validationArg) = FTy.validate ∘ ArgRef.ty := rfl
      have e2 : FArg.validate ∘ StoredArg.farg now = FTy.validate ∘ StoredArg.ty := funext hval
      rw [List.map_map, List.map_map, e1, e2, ← List.map_map, ← List.map_map, h2]
  obtain ⟨k, hk⟩ := List.getElem?_of_mem ha
  have hrun := loop_dead (as.map (StoredArg.farg now)) str ('O' ∈ str) ?_ ?_ (str.length + 1)
    ⟨Reader.ofStr str, none, 0⟩ (Bitset.new 128) [] [] (Bitset.rep_new 128) (Reader.at_ofStr _).1 rfl hmake.2
    ⟨k, a.farg now, by simp [hk], by simp, by simp only [StoredArg.farg, hnone]; rfl⟩
  · have hto : formatTo str (as.map (StoredArg.farg now)) s = runOn (formatRun str (as.map (StoredArg.farg now))) s := by
      unfold formatTo
      rw [hmake.1]
      rfl
    rw [hto]
    unfold runOn formatRun
    rcases hrun with hrun | ⟨ho, f, e, hrun⟩
    · rw [hrun]
      exact ⟨by simp, fun _ => rfl⟩
    · rw [hrun]
      refine ⟨?_, fun h => absurd ho h⟩
      intro s'
      simp only
      cases execAll f.ops s <;> simp
  · intro b hb
    obtain ⟨c, hc, rfl⟩ := List.mem_map.1 hb
    rcases h3 c hc with ⟨hnt, hn | ⟨v, hv, hty⟩⟩
    · exact Or.inr (by simp only [StoredArg.farg, hn]; rfl)
    · refine Or.inl ?_
      intro r r' hsrc hi hvd
      simp only [StoredArg.farg, hv] at hvd ⊢
      obtain ⟨act, e1, e2⟩ := value_sound hnt hty str r r' hsrc hi hvd
      refine ⟨act, e1, fun ops => ?_⟩
      rcases e2 with ⟨ho, e2⟩ | ⟨text, e2⟩
      · obtain ⟨new, e, g1, _⟩ := e2 ops
        exact Or.inr ⟨ho, _, _, g1⟩
      · obtain ⟨new, g1, _⟩ := e2 ops
        exact Or.inl ⟨_, g1⟩
  · intro b hb
    obtain ⟨c, hc, rfl⟩ := List.mem_map.1 hb
    have := (value_tame (h3 c hc).1 FVal.none).forward
    intro r hr
    have := this r hr
    rwa [hval]

/-- A vector that does not exist anymore. -/
example {σ : Type} [BufferImpl σ] (s : σ) :
    formatLater before (fun _ => none) "{} {}".toList [.scalar 0 (.int i32), .object 2 (.seq .int)] s = .bad .ub := by
  refine (C74_dangling before _ _ _ ?_ ⟨.object 2 (.seq .int), by simp, .object rfl⟩ ?_ s).2 (by decide)
  · intro r hr
    simp only [List.mem_cons, List.not_mem_nil, or_false] at hr
    rcases hr with rfl | rfl
    · exact ⟨trivial, Or.inr ⟨_, .scalar (a := .int i32 1) rfl, .core (by unfold ValidArg; decide)⟩⟩
    · exact ⟨trivial, Or.inl (.object rfl)⟩
  · exact ⟨⟨⟨false, some "{} {}".toList⟩, [.copy (.int i32 1), .ref 2 (.seq .int)]⟩, by rfl, rfl⟩

end Emio
