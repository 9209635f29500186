import Verif.Infer.Walk
import Mathlib.Tactic

/-!
# C117: seeds, continuation, thinning and moves of the ensemble samplers
-/

namespace Elisa.Infer.Walk

open Elisa Elisa.Infer

variable {S R T : Type}

theorem steps_add (lib : Lib S R T) (a b : ℕ) (x : S × R × T) : steps lib (a + b) x = steps lib b (steps lib a x) := by
  induction a generalizing x with
  | zero => rw [Nat.zero_add]; rfl
  | succ a ih => rw [Nat.add_right_comm]; exact ih (lib.step x)

theorem collect_state (lib : Lib S R T) (t n : ℕ) (x : S × R × T) : (collect lib t n x).2 = steps lib (n * t) x := by
  induction n generalizing x with
  | zero => rw [Nat.zero_mul]; rfl
  | succ n ih =>
    show (collect lib t n (steps lib t x)).2 = _
    rw [ih, Nat.succ_mul, Nat.add_comm, steps_add]

theorem collect_add (lib : Lib S R T) (t a b : ℕ) (x : S × R × T) :
    collect lib t (a + b) x = ((collect lib t a x).1 ++ (collect lib t b (collect lib t a x).2).1, (collect lib t b (collect lib t a x).2).2) := by
  induction a generalizing x with
  | zero => rw [Nat.zero_add]; rfl
  | succ a ih =>
    rw [Nat.add_right_comm]
    show ((steps lib t x).1 :: (collect lib t (a + b) (steps lib t x)).1, (collect lib t (a + b) (steps lib t x)).2) = _
    rw [ih]
    rfl

theorem collect_length (lib : Lib S R T) (t n : ℕ) (x : S × R × T) : (collect lib t n x).1.length = n := by
  induction n generalizing x with
  | zero => rfl
  | succ n ih => exact congrArg (· + 1) (ih _)

theorem collect_get (lib : Lib S R T) (t n : ℕ) (x : S × R × T) (i : ℕ) (hi : i < n) : (collect lib t n x).1[i]? = some (steps lib ((i + 1) * t) x).1 := by
  induction n generalizing x i with
  | zero => omega
  | succ n ih =>
    show ((steps lib t x).1 :: (collect lib t n (steps lib t x)).1)[i]? = _
    cases i with
    | zero => simp
    | succ i =>
      rw [List.getElem?_cons_succ, ih _ _ (by omega), ← steps_add]
      congr 2
      ring_nf

/-- The state after `n` steps of a chain that starts at `x`: the specification of a chain. -/
def chainAt (lib : Lib S R T) (x : S × R × T) : ℕ → S × R × T := fun n => lib.step^[n] x

theorem steps_chain (lib : Lib S R T) (n : ℕ) (x : S × R × T) : steps lib n x = chainAt lib x n := by
  induction n generalizing x with
  | zero => rfl
  | succ n ih => rw [steps, ih]; rfl

/-- **C117 (stored draws).**  After `w` warm-up steps, which are not stored, the `i`-th stored draw is the state of the chain after `(i + 1) t` further steps: every `t`-th step is
kept, `n` draws in all. -/
theorem C117_draws (lib : Lib S R T) (own : R) (w n t : ℕ) (c : S) (r : R) :
    (∃ out, emcee lib own w n t ⟨c, .legacy r⟩ = out ∧ out.1.length = n ∧ ∀ i < n, out.1[i]? =
      some (chainAt lib ((chainAt lib (c, r, lib.fresh) w).1, (chainAt lib (c, r, lib.fresh) w).2.1, lib.fresh) ((i + 1) * t)).1) ∧
    (∃ out, zeus lib own w n t ⟨c, .legacy r⟩ = .ok out ∧ out.1.length = n ∧ ∀ i < n, out.1[i]? =
      some (chainAt lib ((chainAt lib (c, r, lib.fresh) w).1, (chainAt lib (c, r, lib.fresh) w).2.1, lib.fresh) ((i + 1) * t)).1) := by
  have hw : (collect lib 1 w (c, r, lib.fresh)).2 = chainAt lib (c, r, lib.fresh) w := by rw [collect_state, Nat.mul_one, steps_chain]
  refine ⟨⟨_, rfl, ?_, ?_⟩, ⟨_, rfl, ?_, ?_⟩⟩
  · exact collect_length _ _ _ _
  · intro i hi
    show (collect lib t n _).1[i]? = _
    rw [collect_get _ _ _ _ _ hi, steps_chain]
    cases w with
    | zero => rfl
    | succ w =>
      show some (chainAt lib ((collect lib 1 (w + 1) (c, r, lib.fresh)).2.1, (collect lib 1 (w + 1) (c, r, lib.fresh)).2.2.1, lib.fresh) ((i + 1) * t)).1 = _
      rw [hw]
  · exact collect_length _ _ _ _
  · intro i hi
    show (collect lib t n _).1[i]? = _
    rw [collect_get _ _ _ _ _ hi, steps_chain]
    show some (chainAt lib ((collect lib 1 w (c, r, lib.fresh)).2.1, (collect lib 1 w (c, r, lib.fresh)).2.2.1, lib.fresh) ((i + 1) * t)).1 = _
    rw [hw]

/-- Steps leave the tuning state of a new sampler alone: no tuning. -/
def Untuned (lib : Lib S R T) : Prop := ∀ s r, (lib.step (s, r, lib.fresh)).2.2 = lib.fresh

theorem untuned_steps (lib : Lib S R T) (h : Untuned lib) (n : ℕ) (s : S) (r : R) : (steps lib n (s, r, lib.fresh)).2.2 = lib.fresh := by
  induction n generalizing s r with
  | zero => rfl
  | succ n ih =>
    rw [steps]
    have e : lib.step (s, r, lib.fresh) = ((lib.step (s, r, lib.fresh)).1, (lib.step (s, r, lib.fresh)).2.1, lib.fresh) := by
      conv_lhs => rw [← Prod.mk.eta (p := lib.step (s, r, lib.fresh)), ← Prod.mk.eta (p := (lib.step (s, r, lib.fresh)).2), h s r]
    rw [e]
    exact ih _ _

theorem untuned_collect (lib : Lib S R T) (h : Untuned lib) (t n : ℕ) (s : S) (r : R) :
    (collect lib t n (s, r, lib.fresh)).2 = ((collect lib t n (s, r, lib.fresh)).2.1, (collect lib t n (s, r, lib.fresh)).2.2.1, lib.fresh) := by
  have := untuned_steps lib h (n * t) s r
  rw [← collect_state] at this
  conv_lhs => rw [← Prod.mk.eta (p := (collect lib t n (s, r, lib.fresh)).2), ← Prod.mk.eta (p := (collect lib t n (s, r, lib.fresh)).2.2), this]

/-- **C117 (continuing a run; partial).**  Without tuning, a run of `n₁` draws followed by a run of `n₂` draws from the states the first one returned — in another process, with
another generator — is the uninterrupted run of `n₁ + n₂` draws, draw for draw, and ends in the same states.  Missing: tuned moves, see `C117_continue_refuted`. -/
theorem C117_continue_partial (lib : Lib S R T) (h : Untuned lib) (own own' : R) (w n₁ n₂ t : ℕ) (hn : 0 < n₁) (s : Saved S R) :
    (∃ a b, emcee lib own w n₁ t s = a ∧ emcee lib own' 0 n₂ t a.2 = b ∧ emcee lib own w (n₁ + n₂) t s = (a.1 ++ b.1, b.2)) ∧
    (∀ r, s.random = .legacy r → ∃ a b, zeus lib own w n₁ t s = .ok a ∧ zeus lib own' 0 n₂ t a.2 = .ok b ∧ zeus lib own w (n₁ + n₂) t s = .ok (a.1 ++ b.1, b.2)) := by
  refine ⟨⟨_, _, rfl, rfl, ?_⟩, fun r hr => ?_⟩
  · obtain ⟨m, rfl⟩ : ∃ m, n₁ = m + 1 := ⟨n₁ - 1, by omega⟩
    generalize hs1 : emceeAfter w s (collect lib 1 w (s.coords, emceeRandom own s.random, lib.fresh)).2 = s1
    have e1 : emcee lib own w (m + 1) t s = ((collect lib t (m + 1) (s1.coords, emceeRandom own s1.random, lib.fresh)).1,
        ⟨(collect lib t (m + 1) (s1.coords, emceeRandom own s1.random, lib.fresh)).2.1, .legacy (collect lib t (m + 1) (s1.coords, emceeRandom own s1.random, lib.fresh)).2.2.1⟩) := by
      rw [← hs1]; rfl
    have e2 : emcee lib own w (m + 1 + n₂) t s = ((collect lib t (m + 1 + n₂) (s1.coords, emceeRandom own s1.random, lib.fresh)).1,
        ⟨(collect lib t (m + 1 + n₂) (s1.coords, emceeRandom own s1.random, lib.fresh)).2.1,
          .legacy (collect lib t (m + 1 + n₂) (s1.coords, emceeRandom own s1.random, lib.fresh)).2.2.1⟩) := by
      have : emcee lib own w (m + 1 + n₂) t s = ((collect lib t (m + 1 + n₂) (s1.coords, emceeRandom own s1.random, lib.fresh)).1,
        emceeAfter (m + 1 + n₂) s1 (collect lib t (m + 1 + n₂) (s1.coords, emceeRandom own s1.random, lib.fresh)).2) := by rw [← hs1]; rfl
      rw [this, Nat.add_right_comm]
      rfl
    rw [e1, e2, collect_add]
    have hu := untuned_collect lib h t (m + 1) s1.coords (emceeRandom own s1.random)
    generalize collect lib t (m + 1) (s1.coords, emceeRandom own s1.random, lib.fresh) = a at hu ⊢
    have e3 : emcee lib own' 0 n₂ t ⟨a.2.1, .legacy a.2.2.1⟩ = ((collect lib t n₂ a.2).1, emceeAfter n₂ ⟨a.2.1, .legacy a.2.2.1⟩ (collect lib t n₂ a.2).2) := by
      have : emcee lib own' 0 n₂ t ⟨a.2.1, .legacy a.2.2.1⟩ = ((collect lib t n₂ (a.2.1, a.2.2.1, lib.fresh)).1,
        emceeAfter n₂ ⟨a.2.1, .legacy a.2.2.1⟩ (collect lib t n₂ (a.2.1, a.2.2.1, lib.fresh)).2) := rfl
      rw [this, ← hu]
    rw [e3]
    cases n₂ with
    | zero => rfl
    | succ k => rfl
  · obtain ⟨c, rd⟩ := s
    subst hr
    generalize hw : collect lib 1 w (c, r, lib.fresh) = wst
    have ez : ∀ n, zeus lib own w n t ⟨c, .legacy r⟩ = .ok ((collect lib t n (wst.2.1, wst.2.2.1, lib.fresh)).1,
        ⟨(collect lib t n (wst.2.1, wst.2.2.1, lib.fresh)).2.1, .legacy (collect lib t n (wst.2.1, wst.2.2.1, lib.fresh)).2.2.1⟩) := fun n => by
      rw [← hw]; rfl
    refine ⟨_, _, ez n₁, rfl, ?_⟩
    rw [ez, collect_add]
    have hu := untuned_collect lib h t n₁ wst.2.1 wst.2.2.1
    generalize collect lib t n₁ (wst.2.1, wst.2.2.1, lib.fresh) = a at hu ⊢
    show _ = Except.ok (a.1 ++ (collect lib t n₂ (a.2.1, a.2.2.1, lib.fresh)).1, (⟨(collect lib t n₂ (a.2.1, a.2.2.1, lib.fresh)).2.1,
      .legacy (collect lib t n₂ (a.2.1, a.2.2.1, lib.fresh)).2.2.1⟩ : Saved S R))
    rw [← hu]

/-- A library for the examples: one walker on the integers, moved by the generator, which counts; the tuning state counts the steps if `tuned`. -/
def exLib (tuned : Bool) : Lib ℤ ℕ ℕ where
  step := fun x => (x.1 + x.2.1 + x.2.2, x.2.1 + 1, if tuned then x.2.2 + 1 else x.2.2)
  fresh := 0
  legacy := fun s => 10 * s

example : Untuned (exLib false) ∧ emcee (exLib false) 7 2 3 2 ⟨5, .legacy 100⟩ = ([411, 620, 833], ⟨833, .legacy 108⟩) := ⟨fun _ _ => rfl, rfl⟩

/-- **C117 (continuing a run, refuted).**  With tuned moves (the default of zeus) a continued run is not the uninterrupted one: the tuning starts again. -/
theorem C117_continue_refuted : ∃ (lib : Lib ℤ ℕ ℕ) (a b : List ℤ × Saved ℤ ℕ), zeus lib 0 0 2 1 ⟨0, .legacy 1⟩ = .ok a ∧ zeus lib 0 0 1 1 a.2 = .ok b ∧
    ∃ c, zeus lib 0 0 3 1 ⟨0, .legacy 1⟩ = .ok c ∧ c.1 ≠ a.1 ++ b.1 :=
  ⟨exLib true, _, _, rfl, rfl, _, rfl, by decide⟩

/-- The draws of a run. -/
def drawsOf (out : List (List S × Saved S R)) : List (List S) := out.map Prod.fst

theorem mapM_id_ok {α : Type} (l : List α) : (l.map (Except.ok (ε := PyErr))).mapM id = .ok l := by
  induction l with
  | nil => rfl
  | cons a l ih => rw [List.map_cons, List.mapM_cons, ih]; rfl

/-- **C117 (seed of zeus).**  A fresh run with zeus succeeds, and its draws are the same in all processes: they depend only on the seed, the start positions and the settings.  So
do those of a run that continues from returned states. -/
theorem C117_zeus_seed (lib : Lib S R T) (own own' : ℕ → R) (w n t seed k : ℕ) (coords : ℕ → S) :
    ∃ out, runZeus lib own w n t (starts (zeusState lib) seed k coords) = .ok out ∧ runZeus lib own' w n t (starts (zeusState lib) seed k coords) = .ok out ∧
      out.length = k ∧ ∀ i < k, ∃ s, out[i]? = some s ∧ zeus lib (lib.legacy 0) w n t ⟨coords i, .legacy (lib.legacy (seed + (i + 1)))⟩ = .ok s := by
  have key : ∀ own'' : ℕ → R, runZeus lib own'' w n t (starts (zeusState lib) seed k coords) = .ok ((List.range k).map fun i : ℕ =>
      let ws := collect lib 1 w (coords i, lib.legacy (seed + (i + 1)), lib.fresh)
      let r := collect lib t n (ws.2.1, ws.2.2.1, lib.fresh)
      (r.1, ⟨r.2.1, .legacy r.2.2.1⟩)) := by
    intro own''
    unfold runZeus
    rw [← mapM_id_ok]
    congr 1
    apply List.ext_getElem?
    intro i
    simp only [starts, List.getElem?_mapIdx, List.getElem?_map]
    by_cases hi : i < k
    · simp [hi, zeus, zeusRandom, zeusState]
    · simp [hi]
  refine ⟨_, key own, key own', by simp, fun i hi => ⟨_, by rw [List.getElem?_map, List.getElem?_range hi]; rfl, rfl⟩⟩

/-- **C117 (continued runs).**  A run that continues from states returned by a run gives the same draws in all processes, with emcee too. -/
theorem C117_resumed (lib : Lib S R T) (own own' : ℕ → R) (w n t : ℕ) (ss : List (Saved S R)) (h : ∀ s ∈ ss, ∃ r, s.random = .legacy r) :
    runEmcee lib own w n t ss = runEmcee lib own' w n t ss := by
  unfold runEmcee
  apply List.ext_getElem?
  intro i
  simp only [List.getElem?_mapIdx]
  cases hs : ss[i]? with
  | none => rfl
  | some s =>
    obtain ⟨r, hr⟩ := h s (List.mem_of_getElem? hs)
    obtain ⟨c, rd⟩ := s
    subst hr
    simp only [Option.map_some, Option.some.injEq]
    cases w with
    | zero => rfl
    | succ w => rfl

/-- A run with at least one draw (or warm-up step) returns states of the kind that can be continued from. -/
theorem C117_returned (lib : Lib S R T) (own : R) (w n t : ℕ) (hn : 0 < n) (s : Saved S R) : ∃ c r, (emcee lib own w n t s).2 = ⟨c, .legacy r⟩ := by
  cases n with
  | zero => omega
  | succ n => exact ⟨_, _, rfl⟩

/-- **C117 (seed of emcee, refuted).**  In a fresh run with emcee the seed only enters the start positions: with the same positions the draws are the same for all seeds, namely those
of the generator found in each process. -/
theorem C117_emcee_seed_refuted (lib : Lib S R T) (own : ℕ → R) (w n t k : ℕ) (coords : ℕ → S) (seed : ℕ) :
    drawsOf (runEmcee lib own w n t (starts emceeState seed k coords)) = drawsOf (runEmcee lib own w n t ((List.range k).map fun i : ℕ => ⟨coords i, .legacy (own i)⟩)) := by
  unfold runEmcee drawsOf
  apply List.ext_getElem?
  intro i
  simp only [starts, List.getElem?_map, List.getElem?_mapIdx]
  by_cases hi : i < k
  · simp only [List.getElem?_range hi, Option.map_some, Option.some.injEq]
    cases w with
    | zero => rfl
    | succ w => rfl
  · simp [hi]

/-- **C117 (seed of emcee, refuted).**  Two runs with the same seed and the same positions in processes with different generators differ. -/
theorem C117_emcee_process_refuted : ∃ (lib : Lib ℤ ℕ ℕ) (own own' : ℕ → ℕ) (seed : ℕ) (coords : ℕ → ℤ),
    drawsOf (runEmcee lib own 1 3 1 (starts emceeState seed 1 coords)) ≠ drawsOf (runEmcee lib own' 1 3 1 (starts emceeState seed 1 coords)) :=
  ⟨exLib false, fun _ => 3, fun _ => 4, 42, fun _ => 0, by decide⟩

/-! ## Log-probabilities -/

/-- The order of log-probabilities; NaN is not comparable. -/
def LogP.lt : LogP → LogP → Prop
  | .negInf, .num _ => True
  | .negInf, .posInf => True
  | .num x, .num y => x < y
  | .num _, .posInf => True
  | _, _ => False

/-- **C117 (`ignore_nan`).**  With `ignore_nan`, no log-probability is NaN; one that was is below all others, also below minus infinity; the order of the others (numbers of at most
the largest size `big`) is not reversed, and numbers are unchanged. -/
theorem C117_nan (big : ℝ) (hb : 0 < big) (a b : LogP) :
    nanToNum big a ≠ .nan ∧ (a ≠ .nan → (nanToNum big .nan).lt (nanToNum big a)) ∧ (∀ x, nanToNum big (.num x) = .num x) ∧
    ((∀ x, a = .num x → |x| ≤ big) → (∀ x, b = .num x → |x| ≤ big) → a.lt b → ¬ (nanToNum big b).lt (nanToNum big a)) := by
  refine ⟨by cases a <;> simp [nanToNum], by cases a <;> simp [nanToNum, LogP.lt], fun x => rfl, fun ha hb' hab => ?_⟩
  cases a <;> cases b <;> simp only [LogP.lt, nanToNum, not_lt] at hab ⊢
  · exact (abs_le.1 (hb' _ rfl)).1
  · linarith
  · exact hab.le
  · exact (abs_le.1 (ha _ rfl)).2

/-! ## The differential move -/

theorem mem_pairsOf (n : ℕ) (p : ℕ × ℕ) : p ∈ pairsOf n ↔ p.1 < n ∧ p.2 < n ∧ p.1 ≠ p.2 := by
  obtain ⟨i, j⟩ := p
  simp only [pairsOf, List.mem_flatMap, List.mem_map, List.mem_filter, List.mem_range, Prod.mk.injEq, decide_eq_true_eq]
  constructor
  · rintro ⟨a, ha, b, ⟨hb, hne⟩, rfl, rfl⟩
    exact ⟨ha, hb, fun h => hne h.symm⟩
  · rintro ⟨h1, h2, h3⟩
    exact ⟨i, h1, j, ⟨h2, fun h => h3 h.symm⟩, rfl, rfl⟩

theorem pairsOf_nodup (n : ℕ) : (pairsOf n).Nodup := by
  unfold pairsOf
  rw [List.nodup_flatMap]
  refine ⟨fun i _ => ?_, ?_⟩
  · exact (List.nodup_range.filter _).map fun a b h => (Prod.mk.inj h).2
  · refine List.Pairwise.imp ?_ (List.nodup_range (n := n))
    intro a b hab x hx hy
    simp only [List.mem_map] at hx hy
    obtain ⟨j, -, rfl⟩ := hx
    obtain ⟨j', -, h⟩ := hy
    exact hab (Prod.mk.inj h).1.symm

theorem pairsOf_length (n : ℕ) : (pairsOf n).length = n * (n - 1) := by
  unfold pairsOf
  rw [List.length_flatMap]
  have : ∀ i ∈ List.range n, (((List.range n).filter fun j : ℕ => j ≠ i).map fun j : ℕ => (i, j)).length = n - 1 := by
    intro i hi
    rw [List.length_map]
    have h := List.length_erase_of_mem hi
    rw [List.length_range] at h
    rw [← h, (List.nodup_range (n := n)).erase_eq_filter]
    congr 1
    apply List.filter_congr
    intro x _
    by_cases hx : x = i <;> simp [hx]
  rw [List.map_congr_left this]
  simp

/-- The memory of a move is right. -/
def Sound (m : Move) : Prop := ∀ k ps, m.known = some (k, ps) → ps = pairsOf k

theorem sound_pairs (m : Move) (h : Sound m) (n : ℕ) : m.pairs n = pairsOf n := by
  unfold Move.pairs
  cases hk : m.known with
  | none => rfl
  | some q =>
    obtain ⟨k, ps⟩ := q
    have := h k ps hk
    subst this
    simp only
    split_ifs with hne
    · rfl
    · rw [not_not.1 hne]

/-- One call: walkers, `mu` and random choice. -/
abbrev Call (V : Type) := List V × ℝ × List ℕ

/-- The move after a history of calls; a call that raises does not change it. -/
noncomputable def afterCalls {V : Type} [AddCommGroup V] [Module ℝ V] (m : Move) (hist : List (Call V)) : Move :=
  hist.foldl (fun m c => match m.direction c.1 c.2.1 c.2.2 with
    | .ok (m', _) => m'
    | .error _ => m) m

theorem sound_after {V : Type} [AddCommGroup V] [Module ℝ V] (m : Move) (h : Sound m) (hist : List (Call V)) :
    Sound (afterCalls m hist) ∧ (afterCalls m hist).tune = m.tune ∧ (afterCalls m hist).mu0 = m.mu0 := by
  induction hist generalizing m with
  | nil => exact ⟨h, rfl, rfl⟩
  | cons c hist ih =>
    have step : ∀ m' out, m.direction c.1 c.2.1 c.2.2 = .ok (m', out) → Sound m' ∧ m'.tune = m.tune ∧ m'.mu0 = m.mu0 := by
      intro m' out hd
      unfold Move.direction at hd
      dsimp only at hd
      split_ifs at hd
      all_goals
        simp only [Except.ok.injEq, Prod.mk.injEq] at hd
        obtain ⟨rfl, -⟩ := hd
        refine ⟨?_, rfl, rfl⟩
        intro k ps hk
        simp only [Option.some.injEq, Prod.mk.injEq] at hk
        rw [← hk.1, ← hk.2, sound_pairs m h]
    unfold afterCalls
    rw [List.foldl_cons]
    cases hd : m.direction c.1 c.2.1 c.2.2 with
    | error e => exact ih m h
    | ok q =>
      obtain ⟨m', out⟩ := q
      obtain ⟨a, b, c'⟩ := step m' out hd
      obtain ⟨d, e, f⟩ := ih m' a
      exact ⟨d, e.trans b, f.trans c'⟩

/-- **C117 (moves).**  After any history of calls with any numbers of walkers, at least two walkers `X` and a random choice of different indices give each walker a direction
`2μ (X_i - X_j)` along the line through two different walkers `i ≠ j`, no ordered pair being used twice; `μ` is the tuned value, or the fixed one without tuning.  Every ordered
pair of different walkers belongs to exactly one index, so that all are equally likely.  A single walker is refused. -/
theorem C117_moves {V : Type} [AddCommGroup V] [Module ℝ V] (tune : Bool) (mu0 : ℝ) (hist : List (Call V)) (X : List V) (mu : ℝ) (choice : List ℕ) :
    (2 ≤ X.length → choice.length = X.length → choice.Nodup → (∀ i ∈ choice, i < X.length * (X.length - 1)) →
      ∃ m' dirs, (afterCalls ⟨tune, mu0, none⟩ hist).direction X mu choice = .ok (m', dirs) ∧ dirs.length = X.length ∧
        ∃ pairs : List (ℕ × ℕ), pairs.Nodup ∧ pairs.length = X.length ∧ (∀ p ∈ pairs, p.1 < X.length ∧ p.2 < X.length ∧ p.1 ≠ p.2) ∧
          dirs = pairs.map fun p => (2 * if tune then mu else mu0) • (X.getD p.1 0 - X.getD p.2 0)) ∧
    (∀ i j, i < X.length → j < X.length → i ≠ j → ∃! k : ℕ, (pairsOf X.length)[k]? = some (i, j)) ∧
    (X.length = 1 → (afterCalls ⟨tune, mu0, none⟩ hist).direction X mu choice = .error .valueError) := by
  obtain ⟨hs, ht, hm⟩ := sound_after (V := V) ⟨tune, mu0, none⟩ (by intro k ps h; simp at h) hist
  have hp := sound_pairs _ hs X.length
  refine ⟨fun h2 hlen hnd hlt => ?_, fun i j hi hj hij => ?_, fun h1 => ?_⟩
  · have hge : ¬ (pairsOf X.length).length < X.length := by
      rw [pairsOf_length, not_lt]
      exact Nat.le_mul_of_pos_right _ (by omega)
    refine ⟨_, _, by unfold Move.direction; dsimp only; rw [hp, if_neg hge], by simp [hlen], choice.map fun (i : ℕ) => (pairsOf X.length).getD i (0, 0), ?_, by simp [hlen], ?_, ?_⟩
    · refine hnd.map_on fun a ha b hb hab => ?_
      have la : a < (pairsOf X.length).length := by rw [pairsOf_length]; exact hlt a ha
      have lb : b < (pairsOf X.length).length := by rw [pairsOf_length]; exact hlt b hb
      simp only [List.getD_eq_getElem?_getD, List.getElem?_eq_getElem la, List.getElem?_eq_getElem lb, Option.getD_some] at hab
      exact (pairsOf_nodup X.length).getElem_inj_iff.1 hab
    · intro p hpm
      obtain ⟨k, hk, rfl⟩ := List.mem_map.1 hpm
      have lk : k < (pairsOf X.length).length := by rw [pairsOf_length]; exact hlt k hk
      rw [← mem_pairsOf]
      simp only [List.getD_eq_getElem?_getD, List.getElem?_eq_getElem lk, Option.getD_some]
      exact List.getElem_mem _
    · rw [List.map_map, ht, hm]
      rfl
  · obtain ⟨k, hk, he⟩ := List.getElem_of_mem ((mem_pairsOf X.length (i, j)).2 ⟨hi, hj, hij⟩)
    refine ⟨k, by simp only [List.getElem?_eq_getElem hk, he], fun k' hk' => ?_⟩
    obtain ⟨l', he'⟩ := List.getElem?_eq_some_iff.1 hk'
    exact (pairsOf_nodup X.length).getElem_inj_iff.1 (he'.trans he.symm)
  · have : (pairsOf X.length).length < X.length := by rw [pairsOf_length, h1]; norm_num
    unfold Move.direction
    dsimp only
    rw [hp, if_pos this]

/-- Three walkers on a line, after calls with two and with three walkers. -/
example : ∃ m' dirs, (afterCalls ⟨true, 1, none⟩ [(([1, 2] : List ℝ), 1, [0, 1]), ([1, 2, 4], 1, [5, 0, 2])]).direction ([1, 2, 4] : List ℝ) 3 [0, 4, 1] = .ok (m', dirs) ∧ dirs.length = 3 ∧
    ∃ pairs : List (ℕ × ℕ), pairs.Nodup ∧ pairs.length = 3 ∧ (∀ p ∈ pairs, p.1 < 3 ∧ p.2 < 3 ∧ p.1 ≠ p.2) ∧
      dirs = pairs.map fun p => (2 * if true then (3 : ℝ) else 1) • (([1, 2, 4] : List ℝ).getD p.1 0 - ([1, 2, 4] : List ℝ).getD p.2 0) :=
  (C117_moves true 1 _ ([1, 2, 4] : List ℝ) 3 [0, 4, 1]).1 (by simp) rfl (by decide) (by decide)

/-! ### Exploring all parameters -/

/-- A run of slice moves: in turn one half of the walkers moves, every walker along its own direction by any distance, the directions being those the move gives for the other
half (any `mu`, any random choice). -/
inductive Slices {V : Type} [AddCommGroup V] [Module ℝ V] : Move → List V → List V → Move → List V → List V → Prop
  | none (m : Move) (a b : List V) : Slices m a b m a b
  | move {m : Move} {a b : List V} {m' : Move} {a' b' : List V} {m'' : Move} {dirs : List V} (mu : ℝ) (choice : List ℕ) (ts : List ℝ) (h : Slices m a b m' a' b')
      (hd : m'.direction b' mu choice = .ok (m'', dirs)) : Slices m a b m'' b' (List.zipWith (· + ·) a' (List.zipWith (· • ·) ts dirs))

/-- **C72, violated at zero, for whole runs.**  If a parameter starts at zero (in the unconstrained space) in every walker — as it does when its initial value is zero, see
`C72_jitter_refuted` — then it is still zero in every walker after any number of moves of zeus, whatever the likelihood, the random numbers and the tuning. -/
theorem C72_stuck_refuted {V : Type} [AddCommGroup V] [Module ℝ V] (coord : V →ₗ[ℝ] ℝ) (m : Move) (a b : List V) (m' : Move) (a' b' : List V) (h : Slices m a b m' a' b')
    (h0 : ∀ x ∈ a ++ b, coord x = 0) : ∀ x ∈ a' ++ b', coord x = 0 := by
  induction h with
  | none => exact h0
  | @move m' a' b' m'' dirs mu choice ts _ hd ih =>
    have hb : ∀ x ∈ b', coord x = 0 := fun x hx => ih x (List.mem_append_right _ hx)
    have ha : ∀ x ∈ a', coord x = 0 := fun x hx => ih x (List.mem_append_left _ hx)
    have hget : ∀ i, coord (b'.getD i 0) = 0 := by
      intro i
      rw [List.getD_eq_getElem?_getD]
      cases hi : b'[i]? with
      | none => simp
      | some x => exact hb x (List.mem_of_getElem? hi)
    have hdirs : ∀ x ∈ dirs, coord x = 0 := by
      unfold Move.direction at hd
      dsimp only at hd
      split_ifs at hd
      all_goals
        simp only [Except.ok.injEq, Prod.mk.injEq] at hd
        rw [← hd.2]
        intro x hx
        obtain ⟨i, -, rfl⟩ := List.mem_map.1 hx
        rw [map_smul, map_sub, hget, hget, sub_zero, smul_zero]
    intro x hx
    rcases List.mem_append.1 hx with hx | hx
    · exact hb x hx
    · obtain ⟨i, hi, rfl⟩ := List.getElem_of_mem hx
      rw [List.getElem_zipWith, List.getElem_zipWith, map_add, map_smul, ha _ (List.getElem_mem _), hdirs _ (List.getElem_mem _), smul_zero, add_zero]

/-- Four walkers in the plane whose second coordinate starts at zero: a first half-step with the directions of zeus, then a second one. -/
example : ∃ a' b' m', Slices ⟨true, 1, none⟩ [((1 : ℝ), (0 : ℝ)), (2, 0)] [(3, 0), (5, 0)] m' a' b' ∧ a' ≠ [(3, 0), (5, 0)] ∧ ∀ x ∈ a' ++ b', x.2 = 0 := by
  have h1 : (Move.mk true 1 none).direction [((3 : ℝ), (0 : ℝ)), (5, 0)] 1 [0, 1] = .ok (⟨true, 1, some (2, [(0, 1), (1, 0)])⟩, [(-4, 0), (4, 0)]) := by
    have hp : Move.pairs ⟨true, 1, none⟩ 2 = [(0, 1), (1, 0)] := by decide
    simp [Move.direction, hp]
    norm_num
  have s1 := Slices.move (m := ⟨true, 1, none⟩) 1 [0, 1] [1, 1] (Slices.none _ [((1 : ℝ), (0 : ℝ)), (2, 0)] [(3, 0), (5, 0)]) h1
  have h2 : (Move.mk true 1 (some (2, [(0, 1), (1, 0)]))).direction (List.zipWith (· + ·) [((1 : ℝ), (0 : ℝ)), (2, 0)] (List.zipWith (· • ·) [(1 : ℝ), 1] [(-4, 0), (4, 0)])) 1 [1, 0] =
      .ok (⟨true, 1, some (2, [(0, 1), (1, 0)])⟩, [(18, 0), (-18, 0)]) := by
    have hp : Move.pairs ⟨true, 1, some (2, [(0, 1), (1, 0)])⟩ 2 = [(0, 1), (1, 0)] := by decide
    simp [Move.direction, hp]
    norm_num
  have s2 := Slices.move 1 [1, 0] [1 / 2, 1 / 2] s1 h2
  refine ⟨_, _, _, s2, ?_, C72_stuck_refuted (LinearMap.snd ℝ ℝ ℝ) _ _ _ _ _ _ s2 (by simp)⟩
  norm_num

end Elisa.Infer.Walk
