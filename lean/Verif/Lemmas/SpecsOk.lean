import Verif.Lemmas.SpecsForward
import Verif.Lemmas.FormatArg
import Verif.Model.Parser
/-
Specifications that come out of a format string.
-/
namespace Emio
open Reader Spec

theorem specs_ok {u r' : Reader} {s' : Specs} (hu : u.Inv) (hv : validateFormatSpecs {} u = .ok r' s') : s'.Ok := by
  have hdef : Specs.Ok {} := ⟨by decide, by decide, by decide⟩
  unfold validateFormatSpecs at hv
  obtain ⟨r1, c, h1, hv⟩ := bind_ok_inv hv
  obtain ⟨l, hl, rfl⟩ := readChar_at ⟨hu, rfl⟩ h1
  have h : u.At (c :: l) := ⟨hu, hl⟩
  split at hv
  · rw [M.pure_run] at hv
    obtain ⟨rfl, rfl⟩ := ok_inj hv
    exact hdef
  · split at hv
    · simp at hv
    · unfold Validate.steps at hv
      obtain ⟨r2, ⟨s2, c2⟩, h2, hv⟩ := bind_ok_inv hv
      have A : ∃ seg, StepTo u c l r2 c2 seg ∧ s2.Ok ∧ s2.zeroFlag = false := by
        rcases align_inv h h2 with ⟨d, _, rfl, hs⟩ | ⟨_, rfl, hs⟩ | ⟨_, rfl, hs⟩ <;>
          exact ⟨_, hs, ⟨by simp [int32Max], by simp [noPrecision, int32Max], by simp⟩, rfl⟩
      obtain ⟨seg, hs, ok2, z2⟩ := A
      obtain ⟨l2, u2, hu2, e2, rfl, a2⟩ := hs.at h
      obtain ⟨r3, ⟨s3, c3⟩, h3, hv⟩ := bind_ok_inv hv
      have A : ∃ seg, StepTo u2 c2 l2 r3 c3 seg ∧ s3.Ok ∧ s3.zeroFlag = false := by
        rcases sign_inv a2 h3 with ⟨_, rfl, hs⟩ | ⟨_, rfl, hs⟩
        · exact ⟨_, hs, ⟨ok2.width, ok2.precision, ok2.zero⟩, z2⟩
        · exact ⟨_, hs, ok2, z2⟩
      obtain ⟨seg3, hs, ok3, z3⟩ := A
      obtain ⟨l3, u3, hu3, e3, rfl, a3⟩ := hs.at a2
      obtain ⟨r4, ⟨s4, c4⟩, h4, hv⟩ := bind_ok_inv hv
      have A : ∃ seg, StepTo u3 c3 l3 r4 c4 seg ∧ s4.Ok := by
        rcases alternate_inv a3 h4 with ⟨_, rfl, hs⟩ | ⟨_, rfl, hs⟩
        · exact ⟨_, hs, ⟨ok3.width, ok3.precision, ok3.zero⟩⟩
        · exact ⟨_, hs, ok3⟩
      obtain ⟨seg4, hs, ok4⟩ := A
      obtain ⟨l4, u4, hu4, e4, rfl, a4⟩ := hs.at a3
      obtain ⟨r5, ⟨s5, c5⟩, h5, hv⟩ := bind_ok_inv hv
      have A : ∃ seg, StepTo u4 c4 l4 r5 c5 seg ∧ s5.Ok := by
        rcases zero_inv a4 h5 with ⟨_, rfl, hs⟩ | ⟨_, rfl, hs⟩
        · refine ⟨_, hs, ?_⟩
          split
          · exact ⟨ok4.width, ok4.precision, fun _ => ⟨rfl, rfl⟩⟩
          · exact ok4
        · exact ⟨_, hs, ok4⟩
      obtain ⟨seg5, hs, ok5⟩ := A
      obtain ⟨l5, u5, hu5, e5, rfl, a5⟩ := hs.at a4
      obtain ⟨r6, ⟨s6, c6⟩, h6, hv⟩ := bind_ok_inv hv
      have A : ∃ seg, StepTo u5 c5 l5 r6 c6 seg ∧ s6.Ok := by
        rcases width_inv a5 h6 with ⟨ds, w, _, _, hs, rfl, _, hw, _⟩ | ⟨_, rfl, hs⟩
        · exact ⟨_, hs, ⟨hw, ok5.precision, ok5.zero⟩⟩
        · exact ⟨_, hs, ok5⟩
      obtain ⟨seg6, hs, ok6⟩ := A
      obtain ⟨l6, u6, hu6, e6, rfl, a6⟩ := hs.at a5
      obtain ⟨r7, ⟨s7, c7⟩, h7, hv⟩ := bind_ok_inv hv
      have A : ∃ seg, StepTo u6 c6 l6 r7 c7 seg ∧ s7.Ok := by
        rcases precision_inv a6 h7 with ⟨ds, w, _, _, hs, rfl, _, hw, _⟩ | ⟨_, rfl, hs⟩
        · exact ⟨_, hs, ⟨ok6.width, ⟨by simp only; omega, hw.2⟩, ok6.zero⟩⟩
        · exact ⟨_, hs, ok6⟩
      obtain ⟨seg7, hs, ok7⟩ := A
      obtain ⟨l7, u7, hu7, e7, rfl, a7⟩ := hs.at a6
      obtain ⟨r8, ⟨s8, c8⟩, h8, hv⟩ := bind_ok_inv hv
      have ok8 : s8.Ok := by
        rcases type_inv a7 h8 with ⟨_, rfl, hs⟩ | ⟨rfl, hs⟩
        · exact ⟨ok7.width, ok7.precision, ok7.zero⟩
        · exact ok7
      simp only at hv
      split at hv
      · rw [M.pure_run] at hv
        obtain ⟨rfl, rfl⟩ := ok_inj hv
        exact ok8
      · simp at hv

theorem specs_type {u r' : Reader} {s' : Specs} (hu : u.Inv) (hv : validateFormatSpecs {} u = .ok r' s') :
    s'.type = noChar ∨ s'.type ∈ u.src := by
  unfold validateFormatSpecs at hv
  obtain ⟨r1, c, h1, hv⟩ := bind_ok_inv hv
  obtain ⟨l, hl, rfl⟩ := readChar_at ⟨hu, rfl⟩ h1
  have h : u.At (c :: l) := ⟨hu, hl⟩
  split at hv
  · rw [M.pure_run] at hv
    obtain ⟨rfl, rfl⟩ := ok_inj hv
    exact Or.inl rfl
  · split at hv
    · simp at hv
    · unfold Validate.steps at hv
      obtain ⟨r2, ⟨s2, c2⟩, h2, hv⟩ := bind_ok_inv hv
      have A : ∃ seg, StepTo u c l r2 c2 seg ∧ s2.type = noChar := by
        rcases align_inv h h2 with ⟨d, _, rfl, hs⟩ | ⟨_, rfl, hs⟩ | ⟨_, rfl, hs⟩ <;> exact ⟨_, hs, rfl⟩
      obtain ⟨seg, hs, ok2⟩ := A
      obtain ⟨l2, u2, hu2, e2, rfl, a2⟩ := hs.at h
      obtain ⟨r3, ⟨s3, c3⟩, h3, hv⟩ := bind_ok_inv hv
      have A : ∃ seg, StepTo u2 c2 l2 r3 c3 seg ∧ s3.type = noChar := by
        rcases sign_inv a2 h3 with ⟨_, rfl, hs⟩ | ⟨_, rfl, hs⟩ <;> exact ⟨_, hs, ok2⟩
      obtain ⟨seg3, hs, ok3⟩ := A
      obtain ⟨l3, u3, hu3, e3, rfl, a3⟩ := hs.at a2
      obtain ⟨r4, ⟨s4, c4⟩, h4, hv⟩ := bind_ok_inv hv
      have A : ∃ seg, StepTo u3 c3 l3 r4 c4 seg ∧ s4.type = noChar := by
        rcases alternate_inv a3 h4 with ⟨_, rfl, hs⟩ | ⟨_, rfl, hs⟩ <;> exact ⟨_, hs, ok3⟩
      obtain ⟨seg4, hs, ok4⟩ := A
      obtain ⟨l4, u4, hu4, e4, rfl, a4⟩ := hs.at a3
      obtain ⟨r5, ⟨s5, c5⟩, h5, hv⟩ := bind_ok_inv hv
      have A : ∃ seg, StepTo u4 c4 l4 r5 c5 seg ∧ s5.type = noChar := by
        rcases zero_inv a4 h5 with ⟨_, rfl, hs⟩ | ⟨_, rfl, hs⟩
        · refine ⟨_, hs, ?_⟩
          split <;> exact ok4
        · exact ⟨_, hs, ok4⟩
      obtain ⟨seg5, hs, ok5⟩ := A
      obtain ⟨l5, u5, hu5, e5, rfl, a5⟩ := hs.at a4
      obtain ⟨r6, ⟨s6, c6⟩, h6, hv⟩ := bind_ok_inv hv
      have A : ∃ seg, StepTo u5 c5 l5 r6 c6 seg ∧ s6.type = noChar := by
        rcases width_inv a5 h6 with ⟨ds, w, _, _, hs, rfl, _, hw, _⟩ | ⟨_, rfl, hs⟩ <;> exact ⟨_, hs, ok5⟩
      obtain ⟨seg6, hs, ok6⟩ := A
      obtain ⟨l6, u6, hu6, e6, rfl, a6⟩ := hs.at a5
      obtain ⟨r7, ⟨s7, c7⟩, h7, hv⟩ := bind_ok_inv hv
      have A : ∃ seg, StepTo u6 c6 l6 r7 c7 seg ∧ s7.type = noChar := by
        rcases precision_inv a6 h7 with ⟨ds, w, _, _, hs, rfl, _, hw, _⟩ | ⟨_, rfl, hs⟩ <;> exact ⟨_, hs, ok6⟩
      obtain ⟨seg7, hs, ok7⟩ := A
      obtain ⟨l7, u7, hu7, e7, rfl, a7⟩ := hs.at a6
      obtain ⟨r8, ⟨s8, c8⟩, h8, hv⟩ := bind_ok_inv hv
      have ok8 : s8.type = noChar ∨ s8.type ∈ u.src := by
        rcases type_inv a7 h8 with ⟨_, rfl, hs⟩ | ⟨rfl, hs⟩
        · right
          have hsrc : u7.src = u.src := by rw [hu7, hu6, hu5, hu4, hu3, hu2]; rfl
          rw [← hsrc]
          have : c7 ∈ u7.rest := by rw [a7.2]; exact List.mem_cons_self ..
          exact List.mem_of_mem_drop this
        · exact Or.inl ok7
      simp only at hv
      split at hv
      · rw [M.pure_run] at hv
        obtain ⟨rfl, rfl⟩ := ok_inj hv
        exact ok8
      · simp at hv

theorem meaning_ok {t : SpecText} (fits : t.Fits) : t.meaning.Ok := by
  obtain ⟨h1, h2⟩ := fits
  refine ⟨⟨?_, ?_⟩, ⟨?_, ?_⟩, ?_⟩
  · simp [SpecText.meaning]
  · simp only [SpecText.meaning, int32Max]; omega
  · simp only [SpecText.meaning, SpecText.precValue]; split <;> omega
  · simp only [SpecText.meaning, int32Max]; omega
  · unfold SpecText.meaning
    cases ha : t.align <;> simp

end Emio
