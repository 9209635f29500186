import Verif.Infer.Kernel
import Verif.Infer.MaxLikeProps
import Mathlib.Algebra.BigOperators.Group.List.Basic
import Mathlib.Data.Nat.Cast.Field
import Mathlib.Data.Rat.Cast.CharZero
import Mathlib.Tactic.FieldSimp
import Mathlib.Tactic.Ring
import Mathlib.Tactic.LinearCombination

/-!
# C80: a chain adapts during warm-up only; C81: runs start and resume where asked
-/

namespace Elisa.Infer

open Elisa

section Nuts

variable {P S A G Key F : Type} [Field F] [CharZero F]

/-- The acceptance rates of the transitions `a + 1, …, a + n` of a run. -/
def rates (b : BlackJax P S A G Key F) (warmup : Nat) (s : NutsState P S A Key F) (a n : Nat) : List F :=
  (List.range n).map fun j => (nutsRun b warmup (a + j + 1) s).accept

theorem nutsRun_i (b : BlackJax P S A G Key F) (w n : Nat) (s : NutsState P S A Key F) :
    (nutsRun b w n s).i = s.i + n := by
  induction n with
  | zero => rfl
  | succ n ih => show (nutsRun b w n s).i + 1 = _; rw [ih]; omega

theorem nutsRun_add (b : BlackJax P S A G Key F) (w m n : Nat) (s : NutsState P S A Key F) :
    nutsRun b w (m + n) s = nutsRun b w n (nutsRun b w m s) := by
  induction n with
  | zero => rfl
  | succ n ih => show nutsStep b w (nutsRun b w (m + n) s) = _; rw [ih]; rfl

/-- After warm-up the adaptation state never changes, and the stored tuning is the final one of that state. -/
theorem frozen (b : BlackJax P S A G Key F) (w : Nat) (s : NutsState P S A Key F) (hi : w ≤ s.i) (n : Nat) :
    (nutsRun b w n s).adapt = s.adapt ∧ (0 < n → (nutsRun b w n s).tuning = b.adaptFinal s.adapt) := by
  induction n with
  | zero => exact ⟨rfl, by omega⟩
  | succ n ih =>
    have h1 : ¬ ((nutsRun b w n s).i + 1 ≤ w) := by rw [nutsRun_i]; omega
    have ha : (nutsRun b w (n + 1) s).adapt = s.adapt := by
      show (if (nutsRun b w n s).i + 1 ≤ w then _ else (nutsRun b w n s).adapt) = _
      rw [if_neg h1, ih.1]
    refine ⟨ha, fun _ => ?_⟩
    show b.adaptFinal (if (nutsRun b w n s).i + 1 ≤ w then _ else (nutsRun b w n s).adapt) = _
    rw [if_neg h1, ih.1]

theorem running_mean (b : BlackJax P S A G Key F) (w : Nat) (s : NutsState P S A Key F) (n : Nat) (c : Nat → Nat)
    (hc : ∀ j < n, (if (nutsRun b w j s).i + 1 ≤ w then (nutsRun b w j s).i + 1 else (nutsRun b w j s).i + 1 - w) = c j + 1)
    (hc' : ∀ j, c j = c 0 + j) :
    ((c 0 + n : Nat) : F) * (nutsRun b w n s).meanAccept = (c 0 : F) * s.meanAccept + (rates b w s 0 n).sum := by
  induction n with
  | zero => simp [rates, nutsRun]
  | succ n ih =>
    have ih' := ih fun j hj => hc j (by omega)
    have hn := hc n (by omega)
    have hr : (rates b w s 0 (n + 1)).sum = (rates b w s 0 n).sum + (nutsRun b w (n + 1) s).accept := by
      simp [rates, List.range_succ, Nat.add_comm]
    have hm : (nutsRun b w (n + 1) s).meanAccept = (nutsRun b w n s).meanAccept +
        ((nutsRun b w (n + 1) s).accept - (nutsRun b w n s).meanAccept) / ((c 0 + n + 1 : Nat) : F) := by
      show (nutsRun b w n s).meanAccept + (_ - (nutsRun b w n s).meanAccept) / ((if _ then _ else _ : Nat) : F) = _
      rw [hn, hc' n]
      rfl
    have hne : ((c 0 + n + 1 : Nat) : F) ≠ 0 := Nat.cast_ne_zero.2 (by omega)
    rw [hr, hm, ← add_assoc (c 0 : Nat) n 1, ← add_assoc, ← ih']
    field_simp
    push_cast
    ring

/-- **C80 (adaptation).**  In a run of `blackjax_nuts` from scratch, whatever the kernel, the adaptation rule and the schedule do:
transition `n + 1 ≤ warmup` uses the tuning of the adaptation state reached so far, and consults entry `n` of the schedule (in range);
every transition after the warm-up uses one and the same tuning, the final one of the adaptation state at the end of the warm-up. -/
theorem C80_adaptation (b : BlackJax P S A G Key F) (warmup : Nat) (z : P) (key : Key) (n : Nat) :
    (n < warmup →
      usedTuning b warmup (nutsRun b warmup n (nutsInit b z key)) = b.current (nutsRun b warmup n (nutsInit b z key)).adapt ∧
      (nutsRun b warmup (n + 1) (nutsInit b z key)).adapt =
        b.adaptStep (nutsRun b warmup n (nutsInit b z key)).adapt (b.schedule warmup n)
          (nutsRun b warmup (n + 1) (nutsInit b z key)).z (nutsRun b warmup (n + 1) (nutsInit b z key)).accept) ∧
    (0 < warmup → warmup ≤ n →
      usedTuning b warmup (nutsRun b warmup n (nutsInit b z key)) =
        b.adaptFinal (nutsRun b warmup warmup (nutsInit b z key)).adapt ∧
      (nutsRun b warmup n (nutsInit b z key)).adapt = (nutsRun b warmup warmup (nutsInit b z key)).adapt) := by
  have hi : ∀ m, (nutsRun b warmup m (nutsInit b z key)).i = m := fun m => by
    rw [nutsRun_i]; exact Nat.zero_add m
  constructor
  · intro hn
    have h1 : (nutsRun b warmup n (nutsInit b z key)).i + 1 ≤ warmup := by rw [hi]; omega
    refine ⟨by rw [usedTuning, if_pos h1], ?_⟩
    show (if (nutsRun b warmup n (nutsInit b z key)).i + 1 ≤ warmup then _ else _) = _
    rw [if_pos h1, hi]
    rfl
  · intro h0 hn
    obtain ⟨k, rfl⟩ := Nat.exists_eq_add_of_le hn
    have h1 : ¬ ((nutsRun b warmup (warmup + k) (nutsInit b z key)).i + 1 ≤ warmup) := by rw [hi]; omega
    have hf := frozen b warmup (nutsRun b warmup warmup (nutsInit b z key)) (by rw [hi]) k
    rw [nutsRun_add] at h1 ⊢
    refine ⟨?_, hf.1⟩
    rw [usedTuning, if_neg h1]
    rcases Nat.eq_zero_or_pos k with rfl | hk
    · obtain ⟨m, rfl⟩ := Nat.exists_eq_succ_of_ne_zero (Nat.pos_iff_ne_zero.1 h0)
      rfl
    · exact hf.2 hk

/-- **C80 (acceptance statistic).**  The acceptance probability shown for a run from scratch is, during warm-up, the mean over the
warm-up transitions so far and, during sampling, the mean over the sampling transitions so far. -/
theorem C80_mean_accept (b : BlackJax P S A G Key F) (warmup : Nat) (z : P) (key : Key) (n : Nat) :
    (n ≤ warmup → (n : F) * (nutsRun b warmup n (nutsInit b z key)).meanAccept =
      (rates b warmup (nutsInit b z key) 0 n).sum) ∧
    ((n : F) * (nutsRun b warmup (warmup + n) (nutsInit b z key)).meanAccept =
      if n = 0 then 0 else (rates b warmup (nutsInit b z key) warmup n).sum) := by
  have hi : ∀ m, (nutsRun b warmup m (nutsInit b z key)).i = m := fun m => by
    rw [nutsRun_i]; exact Nat.zero_add m
  constructor
  · intro hn
    have h := running_mean b warmup (nutsInit b z key) n (fun j => j)
      (fun j hj => by rw [hi, if_pos (by omega)]) (fun j => by omega)
    simpa using h
  · have h := running_mean b warmup (nutsRun b warmup warmup (nutsInit b z key)) n (fun j => j)
      (fun j hj => by
        rw [← nutsRun_add, hi, if_neg (by omega)]; omega) (fun j => by omega)
    rw [nutsRun_add]
    have hr : rates b warmup (nutsRun b warmup warmup (nutsInit b z key)) 0 n = rates b warmup (nutsInit b z key) warmup n := by
      unfold rates
      apply List.map_congr_left
      intro j _
      rw [← nutsRun_add, Nat.zero_add, Nat.add_assoc]
    rw [hr] at h
    split_ifs with h0
    · subst h0; simp
    · simpa using h

/-- **C80 (resuming, part that holds).**  A run resumed from a saved state that has already made at least `warmup` transitions (the `warmup` of
the resumed run) never adapts: every transition uses the same tuning.  Missing: saved states with fewer transitions
(`C80_resume_refuted`). -/
theorem C80_resume_partial (b : BlackJax P S A G Key F) (warmup : Nat) (s : NutsState P S A Key F) (key : Key) (hi : warmup ≤ s.i)
    (hs : s.tuning = b.adaptFinal s.adapt) (n : Nat) :
    usedTuning b warmup (nutsRun b warmup n (resume s key)) = s.tuning ∧
      (nutsRun b warmup n (resume s key)).adapt = s.adapt := by
  have hf := frozen b warmup (resume s key) hi n
  have h1 : ¬ ((nutsRun b warmup n (resume s key)).i + 1 ≤ warmup) := by
    rw [nutsRun_i]; show ¬ (s.i + n + 1 ≤ warmup); omega
  refine ⟨?_, hf.1⟩
  rw [usedTuning, if_neg h1]
  rcases Nat.eq_zero_or_pos n with rfl | hn
  · rfl
  · rw [hf.2 hn, hs]; rfl

/-- The hypothesis `hs` of `C80_resume_partial` holds of every state a run leaves behind. -/
theorem C80_left_behind (b : BlackJax P S A G Key F) (warmup : Nat) (s : NutsState P S A Key F) (n : Nat) (hn : 0 < n) :
    (nutsRun b warmup n s).tuning = b.adaptFinal (nutsRun b warmup n s).adapt := by
  obtain ⟨m, rfl⟩ := Nat.exists_eq_succ_of_ne_zero (Nat.pos_iff_ne_zero.1 hn)
  rfl

/-- **C80 (continuing a run).**  Resuming with the same `warmup` continues the acceptance statistic: after `k` sampling transitions of a first run
and `n` of the resumed one, it is the mean over all `k + n`. -/
theorem C80_resume_mean (b : BlackJax P S A G Key F) (warmup : Nat) (z : P) (key key' : Key) (k n : Nat) (hk : 0 < k) :
    ((k + n : Nat) : F) * (nutsRun b warmup n (resume (nutsRun b warmup (warmup + k) (nutsInit b z key)) key')).meanAccept =
      (rates b warmup (nutsInit b z key) warmup k).sum +
      (rates b warmup (resume (nutsRun b warmup (warmup + k) (nutsInit b z key)) key') 0 n).sum := by
  have h0 : (nutsRun b warmup (warmup + k) (nutsInit b z key)).i = warmup + k := by
    rw [nutsRun_i]; exact Nat.zero_add _
  have h := running_mean b warmup (resume (nutsRun b warmup (warmup + k) (nutsInit b z key)) key') n (fun j => k + j)
    (fun j hj => by
      rw [nutsRun_i]
      show (if (nutsRun b warmup (warmup + k) (nutsInit b z key)).i + j + 1 ≤ warmup then _ else
        (nutsRun b warmup (warmup + k) (nutsInit b z key)).i + j + 1 - warmup) = _
      rw [h0, if_neg (by omega)]; omega) (fun j => by omega)
  have hm := (C80_mean_accept b warmup z key k).2
  rw [if_neg (by omega)] at hm
  simp only [Nat.add_zero] at h
  rw [h, ← hm]
  rfl

end Nuts

section NutsExamples

/-- A kernel that moves by its step size, and an adaptation that adds one to the step size each time. -/
def exBlackJax : BlackJax ℚ ℚ ℚ Nat Nat ℚ where
  kernel := fun _ z s => (z + s, 1 / 2)
  adaptStep := fun a _ _ _ => a + 1
  adaptFinal := fun a => a
  current := fun a => a
  adaptInit := fun _ => 1
  schedule := fun _ i => i
  split := fun k => k + 1

example : (nutsRun exBlackJax 2 4 (nutsInit exBlackJax 0 0)).z = 1 + 2 + 3 + 3 := by decide +kernel
example : (nutsRun exBlackJax 2 4 (nutsInit exBlackJax 0 0)).meanAccept = 1 / 2 := by decide +kernel

/-- **C80 (resuming, refuted).**  A state saved after a run with `warmup=2, steps=2`, used as `post_warmup_state` of a run with a larger `warmup`
(for instance the default 2000), goes on being adapted although the resumed run has no warm-up transitions: its draws are made with
changing step sizes. -/
theorem C80_resume_refuted : ∃ (b : BlackJax ℚ ℚ ℚ Nat Nat ℚ) (s : NutsState ℚ ℚ ℚ Nat ℚ),
    s = nutsRun b 2 4 (nutsInit b 0 0) ∧
    usedTuning b 2000 (nutsRun b 2000 0 (resume s 7)) ≠ usedTuning b 2000 (nutsRun b 2000 1 (resume s 7)) ∧
    (nutsRun b 2000 1 (resume s 7)).adapt ≠ s.adapt :=
  ⟨exBlackJax, _, rfl, by decide +kernel, by decide +kernel⟩

/-- **C80 (acceptance statistic after resuming, refuted).**  If the resumed run is given another `warmup`, the statistic shown is no mean of
acceptance rates: after four sampling transitions with rate `1/2` and one resumed transition with rate `1` it is neither the mean over all
five nor that of the resumed one. -/
theorem C80_resume_mean_refuted : ∃ (b : BlackJax Nat ℚ ℚ Nat Nat ℚ) (s : NutsState Nat ℚ ℚ Nat ℚ),
    s = nutsRun b 2 6 (nutsInit b 0 0) ∧ rates b 2 (nutsInit b 0 0) 2 4 = [1 / 2, 1 / 2, 1 / 2, 1 / 2] ∧
    rates b 0 (resume s 7) 0 1 = [1] ∧
    (nutsRun b 0 1 (resume s 7)).meanAccept ≠ (1 / 2 + 1 / 2 + 1 / 2 + 1 / 2 + 1) / 5 ∧
    (nutsRun b 0 1 (resume s 7)).meanAccept ≠ 1 :=
  ⟨{ kernel := fun _ z _ => (z + 1, if z < 6 then 1 / 2 else 1), adaptStep := fun a _ _ _ => a, adaptFinal := id, current := id,
     adaptInit := fun _ => 1, schedule := fun _ i => i, split := fun k => k + 1 }, _, rfl,
    by decide +kernel, by decide +kernel, by decide +kernel, by decide +kernel⟩

end NutsExamples

section Start

/-- **C81 (saved states).**  The state a sampler leaves behind can be given to a sampler exactly when it is the same kind of sampler; any other
object is rejected, and without a state the run starts from scratch. -/
theorem C81_states (k k' : KernelKind) :
    (setState k' (some k.produces) = .ok (some k.produces) ↔ k = k') ∧
    (k ≠ k' → setState k' (some k.produces) = .error .valueError) ∧
    setState k' (some .foreign) = .error .valueError ∧ setState k' none = .ok none := by
  cases k <;> cases k' <;> decide

/-- Any accepted state is one produced by the same kind of sampler. -/
theorem C81_states_only (k : KernelKind) (st : StateKind) (r : Option StateKind) (h : setState k (some st) = .ok r) :
    st = k.produces ∧ r = some st := by
  cases k <;> cases st <;> simp_all [setState, KernelKind.produces] <;> (rename_i x; cases x <;> simp_all)

example : setState .nuts (some KernelKind.nuts.produces) = .ok (some KernelKind.nuts.produces) := by decide

/-- **C81 (start point).**  A chain starts from the user's values whenever `init` is given (an `init_strategy` passed besides is then ignored), from
the strategy if only that is given, and from the defaults otherwise; the values are, parameter by parameter, the last one the user gave and
else the default. -/
theorem C81_start {V T : Type} (t : FreeTable V) (init : Option (List (String × V))) (strategy : Option T) :
    (∀ s, init = none → strategy = some s → startAt (mergeInit t.default) init strategy = .strategy s) ∧
    (init ≠ none ∨ strategy = none → ∃ d, startAt (mergeInit t.default) init strategy = .values d ∧
      ∀ n, d.lookup n = match (init.getD []).reverse.lookup n with
        | some v => some v
        | none => t.default.lookup n) := by
  refine ⟨fun s h1 h2 => by subst h1 h2; rfl, fun h => ⟨mergeInit t.default init, ?_, fun n => mergeInit_lookup t init n⟩⟩
  cases init with
  | some d => rfl
  | none =>
    rcases h with h | h
    · exact absurd rfl h
    · subst h; rfl

/-- **C81 (number of draws).**  Whatever the thinning, every chain has exactly `steps` draws, the `j`-th being the state after
`(j + 1) * thinning` transitions. -/
theorem C81_draws {α : Type} (steps thinning : Nat) (ht : 0 < thinning) (chain : Nat → α) :
    keptDraws steps thinning chain = (List.range steps).map fun j => chain ((j + 1) * thinning - 1) := by
  unfold keptDraws
  have key : ∀ n, ((List.range (n * thinning)).filter fun t => (t + 1) % thinning = 0) =
      (List.range n).map fun j => (j + 1) * thinning - 1 := by
    intro n
    induction n with
    | zero => simp
    | succ n ih =>
      rw [Nat.succ_mul, List.range_add, List.filter_append, ih, List.range_succ, List.map_append]
      congr 1
      rw [List.filter_map]
      have hblock : ((List.range thinning).filter ((fun t => decide ((t + 1) % thinning = 0)) ∘ fun x => n * thinning + x)) = [thinning - 1] := by
        obtain ⟨m, rfl⟩ := Nat.exists_eq_succ_of_ne_zero (Nat.pos_iff_ne_zero.1 ht)
        rw [List.range_succ, List.filter_append]
        have h1 : (List.range m).filter ((fun t => decide ((t + 1) % m.succ = 0)) ∘ fun x => n * m.succ + x) = [] := by
          rw [List.filter_eq_nil_iff]
          intro x hx
          rw [List.mem_range] at hx
          simp only [Function.comp, decide_eq_true_eq]
          rw [Nat.add_assoc, Nat.mul_add_mod', Nat.mod_eq_of_lt (by omega : x + 1 < m.succ)]
          omega
        rw [h1]
        have h2 : (n * m.succ + m + 1) % m.succ = 0 := by
          rw [Nat.add_assoc, Nat.mul_add_mod']
          exact Nat.mod_self _
        simp [Function.comp, h2]
      rw [hblock]
      simp only [List.map_cons, List.map_nil, List.cons.injEq, and_true]
      rw [Nat.succ_mul]; omega
  rw [key, List.map_map]
  rfl

example : keptDraws 3 2 (fun t => t) = [1, 3, 5] := by decide

/-- **C81 (sampler statistics).**  Every recorded statistic appears (the number of steps under the name `n_steps`); but the tree depth that the code
means to derive from it is never there, for any set of recorded fields without one. -/
theorem C81_stats (extra : List String) :
    (∀ k ∈ extra, k ≠ "num_steps" → k ∈ sampleStats extra) ∧ ("num_steps" ∈ extra → "n_steps" ∈ sampleStats extra) ∧
    (sampleStats extra).length = extra.length ∧ ("tree_depth" ∉ extra → "tree_depth" ∉ sampleStats extra) := by
  have hnot : "num_steps" ∉ extra.map fun k => if k = "num_steps" then "n_steps" else k := by
    intro h
    obtain ⟨k, -, hk⟩ := List.mem_map.1 h
    split_ifs at hk with h1
    · exact absurd hk (by decide)
    · exact h1 hk
  have he : sampleStats extra = extra.map fun k => if k = "num_steps" then "n_steps" else k := by
    unfold sampleStats
    exact if_neg fun h => hnot h.2
  rw [he]
  refine ⟨fun k hk hne => List.mem_map.2 ⟨k, hk, by simp [hne]⟩, fun h => List.mem_map.2 ⟨_, h, by simp⟩, by simp, fun h h' => ?_⟩
  obtain ⟨k, hk, hk'⟩ := List.mem_map.1 h'
  split_ifs at hk' with h1
  · exact absurd hk' (by decide)
  · exact h (hk' ▸ hk)

example : sampleStats ["energy", "num_steps"] = ["energy", "n_steps"] := by decide

end Start

end Elisa.Infer
