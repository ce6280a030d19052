import Verif.Spec.ArgsStorage
import Verif.Lemmas.UserFormatter
import Verif.Lemmas.ScanTemplate
import Verif.Lemmas.ValuesArg
/-
Lemmas about stored arguments.
-/
namespace Emio

theorem stands_store {before now : Memory} {r : ArgRef} {x : FTy × FVal} (h : r.StandsFor before now x) :
    r.ty = x.1 ∧ ∃ a, r.store before = some a ∧ a.ty = x.1 ∧ a.value now = some x.2 := by
  cases h with
  | @scalar addr a there => exact ⟨rfl, .copy a, by simp [ArgRef.store, there], rfl, rfl⟩
  | view there => exact ⟨rfl, _, rfl, rfl, by simp [StoredArg.value, there]⟩
  | @cstr addr front text rest front' text' rest' there terminated later same length =>
    have htake : (text ++ '\x00' :: rest).takeWhile (· ≠ '\x00') = text := by
      rw [List.takeWhile_append_of_pos]
      · simp
      · intro c hc
        have : c ≠ '\x00' := by rintro rfl; exact terminated hc
        simpa using this
    refine ⟨rfl, .view addr front.length text.length, ?_, rfl, ?_⟩
    · simp only [ArgRef.store, there, List.append_assoc, List.drop_left]
      rw [htake, if_pos (by simp)]
    · simp only [StoredArg.value, later]
      rw [← same, ← length, List.append_assoc, List.drop_left, List.take_left, if_pos (by simp)]
  | object there => exact ⟨rfl, _, rfl, rfl, by simp [StoredArg.value, there]⟩

theorem dangles_store {before now : Memory} {r : ArgRef} (h : r.Dangles before now) :
    ∃ a, r.store before = some a ∧ a.ty = r.ty ∧ a.value now = none := by
  cases h with
  | view gone => exact ⟨_, rfl, rfl, by simp [StoredArg.value, gone]⟩
  | @cstr addr front text rest there terminated gone =>
    refine ⟨.view addr front.length ((text ++ '\x00' :: rest).takeWhile (· ≠ '\x00')).length, ?_, rfl,
      by simp [StoredArg.value, gone]⟩
    simp only [ArgRef.store, there, List.append_assoc, List.drop_left]
    rw [if_pos (by simp)]
  | object gone => exact ⟨_, rfl, rfl, by simp [StoredArg.value, gone]⟩

theorem make_congr {args args' : List FArg} (h : args.map FArg.validate = args'.map FArg.validate) (str : Str) :
    VStr.make str args = VStr.make str args' := by
  have hl : args.length = args'.length := by simpa using congrArg List.length h
  unfold VStr.make validateStr
  rw [validateLoop_congr h, hl]

/-- If everything is stored, the string is validated as if the arguments were given then. -/
theorem formatLater_eq {σ : Type} [BufferImpl σ] {before now : Memory} {refs : List ArgRef} {as : List StoredArg}
    (hs : storeAll before refs = some as) (ht : as.map StoredArg.ty = refs.map ArgRef.ty) (str : Str) (s : σ) :
    formatLater before now str refs s = formatTo str (as.map (StoredArg.farg now)) s := by
  have hv : ∀ a : StoredArg, (a.farg now).validate = a.ty.validate := by
    intro a
    unfold StoredArg.farg
    cases a.value now <;> rfl
  have hm : (refs.map fun r => r.ty.validationArg).map FArg.validate = (as.map (StoredArg.farg now)).map FArg.validate := by
    simp only [List.map_map]
    have h1 : (FArg.validate ∘ fun r : ArgRef => r.ty.validationArg) = FTy.validate ∘ ArgRef.ty := rfl
    have h2 : FArg.validate ∘ StoredArg.farg now = FTy.validate ∘ StoredArg.ty := funext hv
    rw [h1, h2, ← List.map_map, ← List.map_map, ht]
  unfold formatLater ArgsStorage.make formatTo
  rw [make_congr hm, hs]
  cases VStr.make str (as.map (StoredArg.farg now)) <;> rfl

/-! ### An argument that is not there anymore -/

/-- Validation and parsing agree on this string, and formatting comes to an end. -/
def FArg.AgreesOn (a : FArg) (src : Str) (errs : Prop) : Prop :=
  ∀ r r', r.src = src → r.Inv → a.validate r = .ok r' () → ∃ act, a.parse r = .ok r' act ∧
    ∀ ops, (∃ ops', act ops = .ok ops' ()) ∨ errs ∧ ∃ ops' e, act ops = .err ops' e

theorem loop_dead (args : List FArg) (src : Str) (errs : Prop)
    (hs : ∀ a ∈ args, a.AgreesOn src errs ∨ a.parse = M.bad .ub) (ht : ∀ a ∈ args, a.Forward) :
    ∀ (fuel : Nat) (p : PSt) (matched : Bitset) (S : List Nat) (ops : List WOp), Bitset.Rep matched S → p.rdr.Inv →
      p.rdr.src = src → validateLoop args fuel p matched = .ok () true →
      (∃ k a, args[k]? = some a ∧ k ∉ S ∧ a.parse = M.bad .ub) →
      formatLoop args fuel ⟨p, ops⟩ = .bad .ub ∨ errs ∧ ∃ f e, formatLoop args fuel ⟨p, ops⟩ = .err f e := by
  intro fuel
  induction fuel with
  | zero => intro p matched S ops _ _ _ h; simp [validateLoop] at h
  | succ fuel ih =>
    intro p matched S ops hrep hi hsrc h hk
    rw [validateLoop] at h
    have hend : matched.allFirst args.length = true → False := by
      intro h
      obtain ⟨k, a, h1, h2, _⟩ := hk
      exact h2 ((Bitset.rep_allFirst hrep _).1 h k (List.getElem?_eq_some_iff.1 h1).1)
    cases hp : Checked.parse p with
    | bad b => rw [hp] at h; simp at h
    | err p' e => rw [hp] at h; simp at h
    | ok p' n =>
      rw [hp] at h
      simp only at h
      rw [formatLoop]
      rcases parse_inv hi hp with ⟨lit, hat, rfl, rfl, hu⟩ | ⟨lit, idx, colon, rest, hat, hh, hb, hu⟩
      · rw [if_pos rfl] at h
        simp only [Run.ok.injEq, true_and] at h
        exact (hend h).elim
      · obtain ⟨pieces, g1, g2⟩ := hu ops
        rw [M.bind_ok g1]
        by_cases hn : n = noMoreArgs
        · rw [if_pos hn] at h
          simp only [Run.ok.injEq, true_and] at h
          exact (hend h).elim
        · rw [if_neg hn] at h ⊢
          split at h
          · simp at h
          · have hset := Bitset.rep_set hrep n
            cases hs' : matched.set n with
            | none => rw [hs'] at h; simp at h
            | some m' =>
              rw [hs'] at h
              simp only at h
              have hrep' : Bitset.Rep m' (n :: S) := by
                split at hset
                · obtain ⟨m2, e1, e2, _⟩ := hset
                  rw [hs'] at e1
                  cases e1
                  exact e2
                · rw [hs'] at hset; simp at hset
              cases ha : args[n]? with
              | none => rw [ha] at h; simp at h
              | some a =>
                rw [ha] at h
                simp only at h ⊢
                have hmem := List.mem_of_getElem? ha
                obtain ⟨hat', hadv⟩ := parse_field_at hat hh
                cases hv : a.validate p'.rdr with
                | bad b => rw [hv] at h; simp at h
                | err r e => rw [hv] at h; simp at h
                | ok r u =>
                  rw [hv] at h
                  simp only at h
                  have hsrc' : p'.rdr.src = src := by rw [hadv]; exact hsrc
                  have hdead : a.parse = M.bad .ub → (processArg a >>= fun _ => formatLoop args fuel)
                      ⟨p', ops ++ pieces.map WOp.str⟩ = .bad .ub := by
                    intro hd
                    refine M.bind_bad ?_
                    unfold processArg
                    rw [hd]
                    rfl
                  rcases hs a hmem with hag | hd
                  · obtain ⟨act, hparse, hem⟩ := hag p'.rdr _ hsrc' hat'.1 hv
                    rcases hem (ops ++ pieces.map WOp.str) with ⟨ops', e3⟩ | ⟨he, ops', e, e3⟩
                    · have hpa : processArg a ⟨p', ops ++ pieces.map WOp.str⟩ = .ok ⟨{ p' with rdr := r }, ops'⟩ () := by
                        unfold processArg
                        simp only [hparse, e3]
                      rw [M.bind_ok hpa]
                      have hri : r.Inv ∧ r.src = src := by
                        rcases ht a hmem p'.rdr hat'.1 with ⟨r1, e1, he⟩ | ⟨body, tail, hbat, hok⟩
                        · rw [he] at hv; simp at hv
                        · rw [hok] at hv
                          obtain ⟨rfl, _⟩ := ok_inj hv
                          exact ⟨hbat.adv.1, hsrc'⟩
                      refine ih { p' with rdr := r } m' (n :: S) ops' hrep' hri.1 hri.2 h ?_
                      obtain ⟨k, b, k1, k2, k3⟩ := hk
                      refine ⟨k, b, k1, ?_, k3⟩
                      simp only [List.mem_cons, not_or]
                      refine ⟨?_, k2⟩
                      rintro rfl
                      rw [ha] at k1
                      cases k1
                      rw [k3] at hparse
                      cases hparse
                    · refine Or.inr ⟨he, ⟨{ p' with rdr := r }, ops'⟩, e, ?_⟩
                      refine M.bind_err ?_
                      unfold processArg
                      simp only [hparse, e3]
                  · exact Or.inl (hdead hd)

end Emio
