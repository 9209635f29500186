import Verif.Infer.Process

/-!
# C105: process-wide settings after sampling
-/

namespace Elisa.Infer.Process

variable {R : Type}

/-- Foreign code that draws random numbers at most. -/
def OnlyDraws (f : Ext R) : Prop := ∀ g, (f g).2 = { g with random := (f g).2.random }

/-- Foreign code that leaves all process-wide settings alone. -/
def LeavesAlone (f : Ext R) : Prop := ∀ g, (f g).2 = g

/-- The assumption about the libraries: UltraNest draws from NumPy's global random state, nothing else is changed by foreign code. -/
def Op.Ordinary : Op R → Prop
  | .ensemble f => LeavesAlone f
  | .nautilus _ f => LeavesAlone f
  | .ultranest _ m f => OnlyDraws m ∧ OnlyDraws f
  | .parallel _ f => LeavesAlone f

/-- The operations that start processes. -/
def Op.Spawns : Op R → Prop
  | .ensemble _ => True
  | .nautilus p _ => p = true
  | .ultranest _ _ _ => False
  | .parallel _ _ => False

/-- The operations that exchange the `Pool` class of nautilus. -/
def Op.Patches : Op R → Prop
  | .nautilus p _ => p = true
  | .ensemble _ => False
  | .ultranest _ _ _ => False
  | .parallel _ _ => False

/-- The operations that draw from NumPy's global random state. -/
def Op.Draws : Op R → Prop
  | .ultranest _ _ _ => True
  | .nautilus _ _ => False
  | .ensemble _ => False
  | .parallel _ _ => False

theorem run_merge (op : Op R) (h : op.Ordinary) (g : Proc R) : (op.run g).2.merge = g.merge := by
  cases op with
  | ensemble f =>
    have hf : ∀ g, (f g).2 = g := h
    simp only [Op.run, ensembleRun, toSpawn, fromSpawn]
    split_ifs <;> simp [hf]
  | nautilus p f =>
    have hf : ∀ g, (f g).2 = g := h
    simp only [Op.run, nautilusInit, toSpawn, fromSpawn]
    split_ifs <;> simp [hf]
  | ultranest s m f =>
    obtain ⟨hm, hf⟩ := h
    have h1 := congrArg Proc.merge (hm { g with random := s })
    have h2 := congrArg Proc.merge (hf (m { g with random := s }).2)
    simp only [Op.run, ultranestRun] at *
    split_ifs <;> simp_all
  | parallel b f => rfl

theorem run_start (op : Op R) (h : op.Ordinary) (g : Proc R) (hne : g.start ≠ "") : (op.Spawns → (op.run g).1 = true → (op.run g).2.start = "spawn") ∧
    (¬ (op.Spawns ∧ (op.run g).1 = true) → (op.run g).2.start = g.start) := by
  cases op with
  | ensemble f =>
    have hf : ∀ g, (f g).2 = g := h
    simp only [Op.run, ensembleRun, toSpawn, fromSpawn, Op.Spawns]
    by_cases hs : g.start = "spawn" <;> simp_all <;> split_ifs <;> simp_all
  | nautilus p f =>
    have hf : ∀ g, (f g).2 = g := h
    cases p with
    | false => simp [Op.run, nautilusInit, Op.Spawns, hf]
    | true =>
      simp only [Op.run, nautilusInit, toSpawn, fromSpawn, Op.Spawns]
      by_cases hs : g.start = "spawn" <;> simp_all <;> split_ifs <;> simp_all
  | ultranest s m f =>
    obtain ⟨hm, hf⟩ := h
    have h1 := congrArg Proc.start (hm { g with random := s })
    have h2 := congrArg Proc.start (hf (m { g with random := s }).2)
    simp only [Op.run, ultranestRun, Op.Spawns] at *
    refine ⟨False.elim, fun _ => ?_⟩
    split_ifs <;> simp_all
  | parallel b f =>
    have hf : ∀ g, (f g).2 = g := h
    simp [Op.run, withMerge, Op.Spawns, hf]

theorem run_pool (op : Op R) (h : op.Ordinary) (g : Proc R) : (op.Patches → (op.run g).1 = true → (op.run g).2.pool = .multiprocess) ∧
    (¬ (op.Patches ∧ (op.run g).1 = true) → (op.run g).2.pool = g.pool) := by
  cases op with
  | ensemble f =>
    have hf : ∀ g, (f g).2 = g := h
    simp only [Op.run, ensembleRun, toSpawn, fromSpawn, Op.Patches]
    refine ⟨False.elim, fun _ => ?_⟩
    split_ifs <;> simp [hf]
  | nautilus p f =>
    have hf : ∀ g, (f g).2 = g := h
    cases p with
    | false => simp [Op.run, nautilusInit, Op.Patches, hf]
    | true =>
      simp only [Op.run, nautilusInit, toSpawn, fromSpawn, Op.Patches]
      by_cases hs : g.start = "spawn" <;> simp_all <;> split_ifs <;> simp_all
  | ultranest s m f =>
    obtain ⟨hm, hf⟩ := h
    have h1 := congrArg Proc.pool (hm { g with random := s })
    have h2 := congrArg Proc.pool (hf (m { g with random := s }).2)
    simp only [Op.run, ultranestRun, Op.Patches] at *
    refine ⟨False.elim, fun _ => ?_⟩
    split_ifs <;> simp_all
  | parallel b f =>
    have hf : ∀ g, (f g).2 = g := h
    simp [Op.run, withMerge, Op.Patches, hf]

theorem run_random (op : Op R) (h : op.Ordinary) (g : Proc R) (hn : ¬ (op.Draws ∧ (op.run g).1 = true)) : (op.run g).2.random = g.random := by
  cases op with
  | ensemble f =>
    have hf : ∀ g, (f g).2 = g := h
    simp only [Op.run, ensembleRun, toSpawn, fromSpawn]
    split_ifs <;> simp [hf]
  | nautilus p f =>
    have hf : ∀ g, (f g).2 = g := h
    simp only [Op.run, nautilusInit, toSpawn, fromSpawn]
    split_ifs <;> simp [hf]
  | ultranest s m f =>
    simp only [Op.run, ultranestRun, Op.Draws, true_and] at *
    split_ifs at hn ⊢ <;> simp_all
  | parallel b f =>
    have hf : ∀ g, (f g).2 = g := h
    simp [Op.run, withMerge, hf]

/-- **C105 (after a run), partial.**  If foreign code leaves the process-wide settings alone but for the random numbers UltraNest draws, then after any history of sampling runs,
bootstraps and predictive checks, whether they raised or not, the JAX flag is as before; if no run that starts processes raised, so is the start method; if no run of nautilus
raised, so is its `Pool`; if no run of UltraNest raised, so is NumPy's random state.  Missing: runs that raise, see `C105_raised_refuted`. -/
theorem C105_restored_partial (ops : List (Op R)) (h : ∀ op ∈ ops, op.Ordinary) (g : Proc R) (hne : g.start ≠ "") :
    (history ops g).2.merge = g.merge ∧
    ((∀ e ∈ (history ops g).1, e.2 = true → ¬ e.1.Spawns) → (history ops g).2.start = g.start) ∧
    ((∀ e ∈ (history ops g).1, e.2 = true → ¬ e.1.Patches) → (history ops g).2.pool = g.pool) ∧
    ((∀ e ∈ (history ops g).1, e.2 = true → ¬ e.1.Draws) → (history ops g).2.random = g.random) := by
  induction ops generalizing g with
  | nil => simp [history]
  | cons op ops ih =>
    have ho := h op (by simp)
    have hst := run_start op ho g hne
    have hne' : (op.run g).2.start ≠ "" := by
      by_cases hc : op.Spawns ∧ (op.run g).1 = true
      · rw [hst.1 hc.1 hc.2]; decide
      · rwa [hst.2 hc]
    obtain ⟨i1, i2, i3, i4⟩ := ih (fun o hm => h o (List.mem_cons_of_mem _ hm)) (op.run g).2 hne'
    simp only [history]
    refine ⟨i1.trans (run_merge op ho g), ?_, ?_, ?_⟩
    · intro hall
      rw [i2 fun e he => hall e (List.mem_cons_of_mem _ he)]
      exact hst.2 fun hc => hall (op, (op.run g).1) (by simp) hc.2 hc.1
    · intro hall
      rw [i3 fun e he => hall e (List.mem_cons_of_mem _ he)]
      exact (run_pool op ho g).2 fun hc => hall (op, (op.run g).1) (by simp) hc.2 hc.1
    · intro hall
      rw [i4 fun e he => hall e (List.mem_cons_of_mem _ he)]
      exact run_random op ho g fun hc => hall (op, (op.run g).1) (by simp) hc.2 hc.1

/-- **C105 fails for a run that raises** (a constructor that refuses its arguments, a failing worker, an interrupt): the start method stays `spawn` and, for nautilus, the
`Pool` class stays patched — for the rest of the process, whatever runs follow, successful ones included. -/
theorem C105_raised_refuted (ops : List (Op R)) (h : ∀ op ∈ ops, op.Ordinary) (g : Proc R) (hne : g.start ≠ "") :
    ((∃ e ∈ (history ops g).1, e.2 = true ∧ e.1.Spawns) → (history ops g).2.start = "spawn") ∧
    ((∃ e ∈ (history ops g).1, e.2 = true ∧ e.1.Patches) → (history ops g).2.pool = .multiprocess) := by
  induction ops generalizing g with
  | nil => simp [history]
  | cons op ops ih =>
    have ho := h op (by simp)
    have hst := run_start op ho g hne
    have hpl := run_pool op ho g
    have hne' : (op.run g).2.start ≠ "" := by
      by_cases hc : op.Spawns ∧ (op.run g).1 = true
      · rw [hst.1 hc.1 hc.2]; decide
      · rwa [hst.2 hc]
    have hops : ∀ o ∈ ops, o.Ordinary := fun o hm => h o (List.mem_cons_of_mem _ hm)
    obtain ⟨i1, i2⟩ := ih hops (op.run g).2 hne'
    obtain ⟨-, j1, j2, -⟩ := C105_restored_partial ops hops (op.run g).2 hne'
    simp only [history]
    constructor
    · rintro ⟨e, he, h1, h2⟩
      by_cases hx : ∃ e ∈ (history ops (op.run g).2).1, e.2 = true ∧ e.1.Spawns
      · exact i1 hx
      · rw [j1 fun e he ht hs => hx ⟨e, he, ht, hs⟩]
        rcases List.mem_cons.1 he with rfl | he
        · exact hst.1 h2 h1
        · exact absurd ⟨e, he, h1, h2⟩ hx
    · rintro ⟨e, he, h1, h2⟩
      by_cases hx : ∃ e ∈ (history ops (op.run g).2).1, e.2 = true ∧ e.1.Patches
      · exact i2 hx
      · rw [j2 fun e he ht hs => hx ⟨e, he, ht, hs⟩]
        rcases List.mem_cons.1 he with rfl | he
        · exact hpl.1 h2 h1
        · exact absurd ⟨e, he, h1, h2⟩ hx

/-- **C105 fails for NumPy's random state** when a run of UltraNest raises: what is left does not depend on the state before, so that all random numbers drawn later by the user's own
code are the same whatever seed the user had set. -/
theorem C105_random_refuted (s : R) (make sample : Ext R) (g : Proc R) (r : R) (hr : (ultranestRun s make sample g).1 = true) :
    (ultranestRun s make sample { g with random := r }).2.random = (ultranestRun s make sample g).2.random := by
  unfold ultranestRun at hr ⊢
  dsimp only at hr ⊢
  split_ifs at hr ⊢ <;> first | rfl | simp at hr

/-- **C105 (reproducibility).**  What UltraNest does — whether it raises and what its constructor and its run are given — does not depend on the random state of the process. -/
theorem C105_seeded (s : R) (make sample : Ext R) (g : Proc R) (r : R) :
    (ultranestRun s make sample { g with random := r }).1 = (ultranestRun s make sample g).1 ∧
    ((ultranestRun s make sample g).1 = false → (ultranestRun s make sample { g with random := r }).2 = { (ultranestRun s make sample g).2 with random := r }) ∧
    ∀ make' sample' : Ext R, (∀ x : Proc R, x.random = s → make' x = make x) →
      ultranestRun s make' sample' g = ultranestRun s make sample' g := by
  refine ⟨?_, ?_, ?_⟩
  · simp only [ultranestRun]
    split_ifs <;> rfl
  · intro hf
    simp only [ultranestRun] at hf ⊢
    split_ifs at hf ⊢ <;> simp_all
  · intro make' sample' hm
    have := hm { g with random := s } rfl
    simp only [ultranestRun, this]

/-- **C105 (a single parallel evaluation).**  Inside, the JAX flag has the value asked for; outside it is restored, also if the evaluation raises or changes the flag itself. -/
theorem C105_merge (flag : Bool) (body : Ext R) (g : Proc R) :
    (withMerge flag body g).2.merge = g.merge ∧ (withMerge flag body g).1 = (body { g with merge := flag }).1 ∧
      ∀ body' : Ext R, (∀ x : Proc R, x.merge = flag → body' x = body x) → withMerge flag body' g = withMerge flag body g := by
  refine ⟨rfl, rfl, fun body' hb => ?_⟩
  simp only [withMerge, hb { g with merge := flag } rfl]

/-! ## Examples -/

/-- A process started with `fork`; nautilus fails once, then succeeds, then emcee succeeds. -/
def exProc : Proc Nat := { random := 5, start := "fork", pool := .original, merge := true }

def exOps : List (Op Nat) := [.nautilus true fun g => (true, g), .nautilus true fun g => (false, g), .ensemble fun g => (false, g), .parallel false fun g => (true, g),
  .ultranest 42 (fun g => (false, { g with random := g.random + 1 })) (fun g => (false, { g with random := g.random + 7 }))]

theorem exOps_ordinary : ∀ op ∈ exOps, op.Ordinary := by
  intro op h
  simp only [exOps, List.mem_cons, List.not_mem_nil, or_false] at h
  rcases h with rfl | rfl | rfl | rfl | rfl
  all_goals first | exact fun _ => rfl | exact ⟨fun _ => rfl, fun _ => rfl⟩

example : (history exOps exProc).2 = { random := 5, start := "spawn", pool := .multiprocess, merge := true } := rfl
example : ∃ e ∈ (history exOps exProc).1, e.2 = true ∧ e.1.Spawns := ⟨_, List.mem_cons_self, rfl, rfl⟩
example : (history (exOps.drop 1) exProc).2 = exProc := rfl
example : exProc.start ≠ "" := by decide
example : (ultranestRun 42 (fun g => (false, g)) (fun g => (true, { g with random := g.random + 1 })) exProc).1 = true ∧
    (ultranestRun 42 (fun g => (false, g)) (fun g => (true, { g with random := g.random + 1 })) exProc).2.random = 43 := ⟨rfl, rfl⟩

end Elisa.Infer.Process
