import Verif.Models.AlgebraProps

/-!
# C31: evaluating a model directly (`Model.eval`) with the parameters of its components
-/

namespace Elisa.Models.Algebra

variable {G ι K P : Type} [CommRing K]

theorem mem_comps_convolved' {id x : Nat} {m : Mod} : x ∈ (Mod.convolved id m).comps ↔ x = id ∨ x ∈ m.comps := by
  simp only [Mod.comps]
  split_ifs with h
  · exact ⟨.inr, fun h' => h'.elim (fun e => e ▸ h) fun hm => hm⟩
  · simp [or_comm]

theorem eval_cases (lib : Lib G ι K P) (params : Nat → Option P) (m : Mod) : ∀ g,
    ((∀ id ∈ m.comps, params id ≠ none) ∧ ∃ v, m.eval lib params g = .ok v) ∨
    ((∃ id ∈ m.comps, params id = none) ∧ m.eval lib params g = .error .keyError) := by
  induction m with
  | comp id ty =>
    intro g
    cases h : params id with
    | none => exact .inr ⟨⟨id, by simp [Mod.comps], h⟩, by simp [Mod.eval, h]⟩
    | some p => exact .inl ⟨by simp [Mod.comps, h], _, by simp only [Mod.eval, h]; rfl⟩
  | bin op l r hl hr =>
    intro g
    rcases hl g with ⟨h1, v, hv⟩ | ⟨⟨x, hx, hn⟩, hv⟩
    · rcases hr g with ⟨h2, w, hw⟩ | ⟨⟨x, hx, hn⟩, hw⟩
      · refine .inl ⟨fun id hid => ?_, ?_⟩
        · rcases mem_appendNew.1 hid with h | h
          · exact h1 id h
          · exact h2 id h
        · cases op
          · exact ⟨_, by simp only [Mod.eval, hv, hw]; rfl⟩
          · exact ⟨_, by simp only [Mod.eval, hv, hw]; rfl⟩
      · exact .inr ⟨⟨x, mem_appendNew.2 (.inr hx), hn⟩, by simp only [Mod.eval, hv, hw]⟩
    · exact .inr ⟨⟨x, mem_appendNew.2 (.inl hx), hn⟩, by simp only [Mod.eval, hv]⟩
  | convolved id m hm =>
    intro g
    cases h : params id with
    | none => exact .inr ⟨⟨id, mem_comps_convolved'.2 (.inl rfl), h⟩, by simp only [Mod.eval, h]⟩
    | some p =>
      rcases hm g with ⟨h1, v, hv⟩ | ⟨⟨x, hx, hn⟩, hv⟩
      · refine .inl ⟨fun y hy => ?_, _, by simp only [Mod.eval, h, hv]; rfl⟩
        rcases mem_comps_convolved'.1 hy with rfl | h'
        · rw [h]; simp
        · exact h1 y h'
      · exact .inr ⟨⟨x, mem_comps_convolved'.2 (.inr hx), hn⟩, by simp only [Mod.eval, h, hv]⟩

/-- **C31 (missing parameters).**  A model is evaluated directly exactly when parameters are given for all its components; otherwise a `KeyError` is
raised, whatever the component that is missing.  Parameters of other components make no difference. -/
theorem C31_missing (lib : Lib G ι K P) (params : Nat → Option P) (m : Mod) (g : G) :
    ((∃ v, m.eval lib params g = .ok v) ↔ ∀ id ∈ m.comps, params id ≠ none) ∧
    ((∃ id ∈ m.comps, params id = none) → m.eval lib params g = .error .keyError) ∧
    ∀ params', (∀ id ∈ m.comps, params' id = params id) → m.eval lib params' g = m.eval lib params g := by
  refine ⟨⟨?_, ?_⟩, ?_, ?_⟩
  · rintro ⟨v, hv⟩
    rcases eval_cases lib params m g with ⟨h, _⟩ | ⟨_, h⟩
    · exact h
    · rw [h] at hv; cases hv
  · intro h
    rcases eval_cases lib params m g with ⟨_, h'⟩ | ⟨⟨x, hx, hn⟩, _⟩
    · exact h'
    · exact absurd hn (h x hx)
  · rintro ⟨x, hx, hn⟩
    rcases eval_cases lib params m g with ⟨h, _⟩ | ⟨_, h⟩
    · exact absurd hn (h x hx)
    · exact h
  · intro params' h
    induction m generalizing g with
    | comp id ty => simp only [Mod.eval, h id (by simp [Mod.comps])]
    | bin op l r hl hr =>
      simp only [Mod.eval, hl g fun x hx => h x (mem_appendNew.2 (.inl hx)), hr g fun x hx => h x (mem_appendNew.2 (.inr hx))]
    | convolved id m hm =>
      have e := fun g => hm g fun x hx => h x (mem_comps_convolved'.2 (.inr hx))
      simp only [Mod.eval, h id (mem_comps_convolved'.2 (.inl rfl)), e]

/-- Non-vacuity: a sum of two components with parameters for one of them. -/
example : ∃ id ∈ (Mod.bin .plus (.comp 0 .add) (.comp 1 .add)).comps, (fun i : Nat => if i = 0 then some (2 : ℚ) else none) id = none :=
  ⟨1, by decide, by decide⟩

end Elisa.Models.Algebra
