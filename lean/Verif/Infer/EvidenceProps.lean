import Verif.Infer.Evidence

/-!
# C106: the evidence and the effective sample size reported for nested sampling
-/

namespace Elisa.Infer.Evidence

open Elisa

variable {D : Type}

/-- The report describes the run: its draws, its effective sample size for every parameter, its evidence and the error of it. -/
def Describes (names : List String) (rep : Report D) (r : Run D) : Prop :=
  rep.draws = r.draws ∧ (∀ n, n ∈ rep.ess.map (·.1) ↔ n ∈ names) ∧ (∀ x ∈ rep.ess, x.2 = r.ess) ∧ rep.lnZ = (some r.lnZ, some r.lnZError)

theorem generate_describes (names : List String) (r : Run D) : Describes names (generate r.draws names r.ess (some r.lnZ, some r.lnZError)) r := by
  refine ⟨rfl, fun n => ?_, fun x hx => ?_, rfl⟩
  · simp [generate]
  · simp only [generate, List.mem_map] at hx
    obtain ⟨n, -, rfl⟩ := hx
    rfl

/-- **C106 (a new run).**  The result of JAXNS, and that of a new run of UltraNest, describe the run. -/
theorem C106_fresh (names : List String) (r : Run D) (printResult : Bool) :
    Describes names (jaxns names r) r ∧ ∃ rep, ultranest names printResult none r = .ok rep ∧ Describes names rep r := by
  refine ⟨generate_describes names r, _, ?_, generate_describes names r⟩
  cases printResult <;> rfl

/-- **C106 (nautilus), partial.**  A run of nautilus that reached its goal is described but for the error of the evidence, which is never known; one that did not raises. -/
theorem C106_nautilus_partial (names : List String) (success : Bool) (r : Run D) :
    (success = false → nautilus names success r = .error .runtimeError) ∧
    (success = true → ∃ rep, nautilus names success r = .ok rep ∧ rep.lnZ.2 = none ∧ Describes names { rep with lnZ := (rep.lnZ.1, some r.lnZError) } r) := by
  constructor
  · rintro rfl; rfl
  · rintro rfl
    exact ⟨_, rfl, rfl, generate_describes names r⟩

/-- **C106 fails for an earlier run of UltraNest read from its log.**  With the default arguments every such call raises `RuntimeError` after reading; with `print_result=False` the draws
are those of the earlier run, but the effective sample size is reported as 0 and the evidence as NaN whatever the log says. -/
theorem C106_read_refuted (names : List String) (log fresh : Run D) :
    ultranest names true (some log) fresh = .error .runtimeError ∧
    ∃ rep, ultranest names false (some log) fresh = .ok rep ∧ rep.draws = log.draws ∧ (∀ x ∈ rep.ess, x.2 = 0) ∧ rep.lnZ = (none, none) ∧ ¬ Describes names rep log := by
  refine ⟨rfl, _, rfl, rfl, ?_, rfl, ?_⟩
  · intro x hx
    simp only [generate, List.mem_map] at hx
    obtain ⟨n, -, rfl⟩ := hx
    rfl
  · rintro ⟨-, -, -, h⟩
    cases h

/-! ## Examples -/

noncomputable def exRun : Run Nat := { draws := [1, 2, 3], ess := 2, lnZ := -10, lnZError := 1 / 2 }

example : ∃ rep, ultranest ["a", "b"] true none exRun = .ok rep ∧ rep.ess = [("a", 2), ("b", 2)] := ⟨_, rfl, rfl⟩
example : ∃ rep, nautilus ["a"] true exRun = .ok rep ∧ rep.draws = [1, 2, 3] := ⟨_, rfl, rfl⟩
example : ∃ rep, ultranest ["a"] false (some exRun) exRun = .ok rep ∧ rep.ess = [("a", 0)] := ⟨_, rfl, rfl⟩

end Elisa.Infer.Evidence
