import Verif.Infer.Batch
import Mathlib.Data.Fintype.Fin
import Verif.Util.ConfigProps

/-!
# C46 (parallel batches) and C49 (p-values)
-/

namespace Elisa.Infer

open Elisa Elisa.Util

variable {D I R : Type}

/-! ## Helper lemmas -/

theorem foriLoop_succ {S : Type} (n : Nat) (body : Nat → S → S) (s : S) :
    foriLoop (n + 1) body s = body n (foriLoop n body s) := by
  simp [foriLoop, List.range_succ]

/-- After `k` iterations rows below `k` hold the results, the others the old contents. -/
theorem foriLoop_fitOnce (fit : D → I → R) (data : List D) (init : List I) (empty : List R) (k : Nat)
    (hd : k ≤ data.length) (hi : k ≤ init.length) (he : k ≤ empty.length) :
    foriLoop k (fitOnce fit data init) empty = (List.zipWith fit data init).take k ++ empty.drop k := by
  induction k with
  | zero => simp [foriLoop]
  | succ k ih =>
    rw [foriLoop_succ, ih (by omega) (by omega) (by omega), fitOnce,
      List.getElem?_eq_getElem (by omega : k < data.length),
      List.getElem?_eq_getElem (by omega : k < init.length)]
    simp only
    apply List.ext_getElem?
    intro i
    have hlen : (List.zipWith fit data init).length = min data.length init.length := by simp
    rw [List.getElem?_set]
    by_cases hik : k = i
    · subst hik
      rw [if_pos rfl, if_pos (by simp; omega), List.getElem?_append_left (by simp; omega),
        List.getElem?_take_of_lt (by omega), List.getElem?_eq_getElem (by simp; omega)]
      simp
    · rw [if_neg hik]
      rcases lt_or_gt_of_ne hik with h | h
      · rw [List.getElem?_append_right (by simp; omega), List.getElem?_append_right (by simp; omega)]
        simp only [List.length_take, hlen, List.getElem?_drop]
        congr 1; omega
      · rw [List.getElem?_append_left (by simp; omega), List.getElem?_append_left (by simp; omega),
          List.getElem?_take_of_lt (by omega), List.getElem?_take_of_lt (by omega)]

/-- A list is the concatenation of its blocks. -/
theorem flatten_blocks {A : Type} (k p : Nat) (xs : List A) (h : xs.length = p * k) :
    ((List.range p).map fun b => (xs.drop (b * k)).take k).flatten = xs := by
  induction p generalizing xs with
  | zero => simp at h; simp [h]
  | succ p ih =>
    rw [List.range_succ_eq_map, List.map_cons, List.flatten_cons, List.map_map]
    have hl : (xs.drop k).length = p * k := by simp [h, Nat.succ_mul]
    have := ih (xs.drop k) hl
    rw [show ((List.range p).map ((fun b => (xs.drop (b * k)).take k) ∘ Nat.succ)) =
      (List.range p).map fun b => ((xs.drop k).drop (b * k)).take k from by
        apply List.map_congr_left
        intro b _
        simp only [Function.comp, List.drop_drop, Nat.succ_mul]
        rw [Nat.add_comm]]
    rw [this]
    simp

theorem reshape_ok {A : Type} (p : Nat) (xs : List A) (hp : 0 < p) (h : p ∣ xs.length) :
    reshape p xs = .ok ((List.range p).map fun b => (xs.drop (b * (xs.length / p))).take (xs.length / p)) := by
  unfold reshape
  rw [if_neg]
  have := Nat.mod_eq_zero_of_dvd h
  omega

theorem reshape_err {A : Type} (p : Nat) (xs : List A) (h : ¬ p ∣ xs.length) :
    reshape p xs = .error .typeError := by
  unfold reshape
  rw [if_pos]
  right
  intro h'
  exact h (Nat.dvd_of_mod_eq_zero h')

theorem zipWith_drop_take (fit : D → I → R) (data : List D) (init : List I) (a k : Nat) :
    List.zipWith fit ((data.drop a).take k) ((init.drop a).take k) =
      ((List.zipWith fit data init).drop a).take k := by
  rw [List.drop_zipWith, List.take_zipWith]

theorem parallel_eq (fit : D → I → R) (data : List D) (init : List I) (empty : List R) (progress : Bool)
    (p : Nat) (hp : 0 < p) (hd : data.length = empty.length) (hi : init.length = empty.length)
    (hdvd : p ∣ empty.length) :
    fitInParallel fit data init empty progress p = .ok (List.zipWith fit data init) := by
  unfold fitInParallel
  have hmod := Nat.mod_eq_zero_of_dvd hdvd
  simp only [hmod, ne_eq, not_true, and_false, if_false]
  rw [reshape_ok p data hp (hd ▸ hdvd), reshape_ok p init hp (hi ▸ hdvd), reshape_ok p empty hp hdvd]
  simp only [bind, Except.bind, pure, Except.pure]
  congr 1
  obtain ⟨k, hk⟩ := hdvd
  have hdiv : empty.length / p = k := by rw [hk]; exact Nat.mul_div_cancel_left k hp
  have hzl : (List.zipWith fit data init).length = p * k := by simp [hd, hi, hk]
  conv_rhs => rw [← flatten_blocks k p _ hzl]
  congr 1
  apply List.map_congr_left
  intro b hb
  have hb' : b < p := List.mem_range.1 hb
  have hbk : b * k + k ≤ p * k := by
    have : (b + 1) * k ≤ p * k := Nat.mul_le_mul_right k hb'
    rwa [Nat.succ_mul] at this
  simp only [List.getD_eq_getElem?_getD, List.getElem?_map, List.getElem?_range hb', Option.map_some,
    Option.getD_some, hd, hi, hdiv]
  rw [foriLoop_fitOnce]
  · rw [zipWith_drop_take, List.take_take, min_self]
    have : ((empty.drop (b * k)).take k).length ≤ k := by simp
    rw [List.drop_eq_nil_of_le this, List.append_nil]
  · simp; omega
  · simp; omega
  · simp; omega

theorem sequence_eq (fit : D → I → R) (data : List D) (init : List I) (empty : List R)
    (hd : data.length = empty.length) (hi : init.length = empty.length) :
    fitInSequence fit data init empty = List.zipWith fit data init := by
  unfold fitInSequence
  rw [foriLoop_fitOnce _ _ _ _ _ (by omega) (by omega) le_rfl]
  simp [hd, hi]

/-! ## C46 -/

/-- **C46**: fitting a batch of `n` datasets gives, in order, the result of each fit; on `p` devices this holds
whenever `p` divides `n`, with or without a progress bar, and whatever the result arrays held before;
when `p` does not divide `n` the parallel run raises instead of dropping or mixing rows. -/
theorem C46_parallel_batch (fit : D → I → R) (data : List D) (init : List I) (empty : List R) (n : Nat)
    (hd : data.length = n) (hi : init.length = n) (he : empty.length = n) :
    (∀ nDev nParallel progress p, getParallelNumber nDev nParallel = .ok p →
      batchFit fit data init empty false progress nDev nParallel = .ok (List.zipWith fit data init)) ∧
    (∀ nDev nParallel progress p, getParallelNumber nDev nParallel = .ok p → 1 ≤ nDev → p ∣ n →
      batchFit fit data init empty true progress nDev nParallel = .ok (List.zipWith fit data init)) ∧
    (∀ nDev nParallel progress p, getParallelNumber nDev nParallel = .ok p → ¬ p ∣ n →
      ∃ e, batchFit fit data init empty true progress nDev nParallel = .error e) := by
  refine ⟨?_, ?_, ?_⟩
  · intro nDev nParallel progress p h
    simp only [batchFit, h, bind, Except.bind, Bool.false_eq_true, if_false, pure, Except.pure]
    rw [sequence_eq _ _ _ _ (by omega) (by omega)]
  · intro nDev nParallel progress p h hn hp
    simp only [batchFit, h, bind, Except.bind, if_true]
    have hpos := ((C54_get_parallel_number nDev hn nParallel).1 p h).1
    exact parallel_eq _ _ _ _ _ _ hpos (by omega) (by omega) (he ▸ hp)
  · intro nDev nParallel progress p h hp
    simp only [batchFit, h, bind, Except.bind, if_true, fitInParallel]
    by_cases hc : progress = true ∧ empty.length % p ≠ 0
    · rw [if_pos hc]
      exact ⟨_, rfl⟩
    · rw [if_neg hc, reshape_err p data (hd ▸ hp)]
      exact ⟨_, rfl⟩

example := C46_parallel_batch (fun (d i : ℕ) => d + i) [3, 4, 5, 6] [0, 1, 2, 3] [0, 0, 0, 0] 4 rfl rfl rfl

/-- The rows of the result: entry `i` is the fit of dataset `i` from start value `i`. -/
theorem C46_row (fit : D → I → R) (data : List D) (init : List I) (i : Nat) (d : D) (x : I)
    (hd : data[i]? = some d) (hi : init[i]? = some x) : (List.zipWith fit data init)[i]? = some (fit d x) := by
  rw [List.getElem?_zipWith, hd, hi]

example : batchFit (fun d x : Nat => d + x) [1, 2, 3, 4] [10, 20, 30, 40] [0, 0, 0, 0] true true 4 (some 2) =
    .ok [11, 22, 33, 44] := rfl
example : batchFit (fun d x : Nat => d + x) [1, 2, 3] [10, 20, 30] [0, 0, 0] true false 4 (some 2) =
    .error .typeError := rfl

/-- **C46**, rounding: a parallel run is enlarged to the next multiple of the number of devices, a sequential
run keeps its size. -/
theorem C46_run_size (p n : Nat) (hp : 1 ≤ p) :
    runSize false p n = n ∧ p ∣ runSize true p n ∧ n ≤ runSize true p n ∧ runSize true p n < n + p ∧
      (p ∣ n → runSize true p n = n) := by
  have hlt : n % p < p := Nat.mod_lt n hp
  refine ⟨by simp [runSize], ?_, ?_, ?_, ?_⟩
  · unfold runSize
    split
    · refine (Nat.dvd_iff_mod_eq_zero).2 ?_
      have : n + (p - n % p) = p * (n / p + 1) := by
        have := Nat.div_add_mod n p
        rw [Nat.mul_succ]; omega
      rw [this]; exact Nat.mul_mod_right p _
    · rename_i h
      exact Nat.dvd_of_mod_eq_zero (by simpa using h)
  · unfold runSize; split <;> omega
  · unfold runSize; split <;> omega
  · intro h
    have := Nat.mod_eq_zero_of_dvd h
    simp [runSize, this]

example := C46_run_size 4 10 (by norm_num)

/-! ## C49 -/

/-- **C49**: the p-value is the number of simulated values that are at least the observed one divided by the
number of simulated values; it lies between 0 and 1, never increases with the observed value, is 1 when no
simulated value is below the observed one and 0 when all are.  Without simulated values it is undefined. -/
theorem C49_p_value (sim : List ℝ) (hne : sim ≠ []) :
    (∀ obs, ∃ v, pValue obs sim = some v ∧
      v = ((Finset.univ.filter fun i : Fin sim.length => obs ≤ sim.get i).card : ℝ) / sim.length ∧
      0 ≤ v ∧ v ≤ 1 ∧ (v = 1 ↔ ∀ x ∈ sim, obs ≤ x) ∧ (v = 0 ↔ ∀ x ∈ sim, x < obs)) ∧
    (∀ obs obs' v v', pValue obs sim = some v → pValue obs' sim = some v' → obs ≤ obs' → v' ≤ v) := by
  have hlen : 0 < sim.length := List.length_pos_iff.2 hne
  have hlenR : (0 : ℝ) < sim.length := by exact_mod_cast hlen
  have key : ∀ obs, pValue obs sim = some (((sim.countP fun x => decide (obs ≤ x) : Nat) : ℝ) / (sim.length : ℝ)) := by
    intro obs; rw [pValue, if_neg (by omega)]
  refine ⟨fun obs => ⟨_, key obs, ?_, ?_, ?_, ?_, ?_⟩, ?_⟩
  · congr 2
    have : ∀ (xs : List ℝ), xs.countP (fun x => decide (obs ≤ x)) =
        (Finset.univ.filter fun i : Fin xs.length => obs ≤ xs.get i).card := by
      intro xs
      induction xs with
      | nil => rfl
      | cons x xs ih =>
        rw [List.countP_cons, ih]
        refine Eq.trans ?_ (Fin.card_filter_univ_succ' (n := xs.length) fun i => obs ≤ (x :: xs).get i).symm
        rw [Nat.add_comm]
        simp only [decide_eq_true_eq]
        rfl
    exact this sim
  · positivity
  · rw [div_le_one hlenR]; exact_mod_cast List.countP_le_length
  · rw [div_eq_one_iff_eq hlenR.ne']
    rw [Nat.cast_inj, List.countP_eq_length]
    simp
  · rw [div_eq_zero_iff]
    simp only [hlenR.ne', or_false, Nat.cast_eq_zero, List.countP_eq_zero]
    simp
  · intro obs obs' v v' h h' hle
    rw [key] at h h'
    cases h; cases h'
    apply div_le_div_of_nonneg_right _ hlenR.le
    have : sim.countP (fun x => decide (obs' ≤ x)) ≤ sim.countP (fun x => decide (obs ≤ x)) := by
      apply List.countP_mono_left
      intro x _ hx
      have : obs' ≤ x := by simpa using hx
      simpa using hle.trans this
    exact_mod_cast this

example := C49_p_value [1, 3, 2] (by simp)

/-- Without a valid simulated fit the p-value is `nan`. -/
theorem C49_no_samples (obs : ℝ) : pValue obs [] = none := rfl

/-- **C46/C49** for the whole bootstrap: with `n` requested simulations and `p` usable devices, `boot` fits
`n'` datasets, `n'` being `n` (sequential) or the next multiple of `p` (parallel); the fits kept are
the valid ones among the fits of each dataset started from the best fit, in order, and the p-value is the
one of exactly those fits. -/
theorem C46_boot (simulate : Nat → List D) (hsim : ∀ k, (simulate k).length = k) (fit : D → I → R) (mle : I)
    (junk : R) (valid : R → Bool) (dev : R → ℝ) (obs : ℝ) (nDev n : Nat) (hDev : 1 ≤ nDev)
    (parallel progress : Bool) (nParallel : Option Int) (p : Nat)
    (hp : getParallelNumber nDev nParallel = .ok p) (hn : runSize parallel p n ≠ 1) :
    ∃ out, boot simulate fit mle junk valid dev obs nDev n parallel progress nParallel = .ok out ∧
      out.n = runSize parallel p n ∧
      out.fits = ((simulate (runSize parallel p n)).map fun d => fit d mle).filter valid ∧
      out.nValid = out.fits.length ∧ out.pValue = pValue obs (out.fits.map dev) := by
  have hpp := (C54_get_parallel_number nDev hDev nParallel).1 p hp
  have hp2 : getParallelNumber nDev (some (p : Int)) = .ok p := by
    unfold getParallelNumber
    simp only
    rw [if_neg (by omega), if_neg (by omega)]
    simp
  have hz : ∀ (k : Nat) (xs : List D), xs.length = k →
      List.zipWith fit xs (List.replicate k mle) = xs.map fun d => fit d mle := by
    intro k xs h
    subst h
    induction xs with
    | nil => rfl
    | cons x xs ih => simp [List.replicate_succ, ih]
  have hb := C46_parallel_batch fit (simulate (runSize parallel p n))
    (List.replicate (runSize parallel p n) mle) (List.replicate (runSize parallel p n) junk)
    (runSize parallel p n) (hsim _) (by simp) (by simp)
  have hout : batchFit fit (simulate (runSize parallel p n)) (List.replicate (runSize parallel p n) mle)
      (List.replicate (runSize parallel p n) junk) parallel progress nDev (some (p : Int)) =
      .ok ((simulate (runSize parallel p n)).map fun d => fit d mle) := by
    rw [← hz _ _ (hsim _)]
    cases parallel with
    | false => exact hb.1 nDev _ progress p hp2
    | true => exact hb.2.1 nDev _ progress p hp2 hDev (C46_run_size p n hpp.1).2.1
  let good := ((simulate (runSize parallel p n)).map fun d => fit d mle).filter valid
  refine ⟨⟨good, pValue obs (good.map dev), runSize parallel p n, good.length⟩, ?_, rfl, rfl, rfl, rfl⟩
  simp only [boot, hp, bind, Except.bind, hn, if_false, hout, pure, Except.pure]
  rfl

/-- A bootstrap of one simulation in sequence (or on one device) always fails an assertion. -/
theorem C46_boot_single (simulate : Nat → List D) (fit : D → I → R) (mle : I) (junk : R) (valid : R → Bool)
    (dev : R → ℝ) (obs : ℝ) (nDev : Nat) (progress : Bool) :
    boot simulate fit mle junk valid dev obs nDev 1 false progress none = .error .assertionError ∧
    boot simulate fit mle junk valid dev obs 1 1 true progress none = .error .assertionError := by
  constructor <;> rfl

/-- **C46/C49** for the posterior predictive check: like `C46_boot`, with one posterior draw per
simulation as start value. -/
theorem C46_ppc (draw : Nat → List I) (hdraw : ∀ k, (draw k).length = k) (simulate : List I → List D)
    (hsim : ∀ ps, (simulate ps).length = ps.length) (fit : D → I → R) (junk : R) (valid : R → Bool)
    (dev : R → ℝ) (obs : ℝ) (nDev n : Nat) (hDev : 1 ≤ nDev) (parallel progress : Bool)
    (nParallel : Option Int) (p : Nat) (hp : getParallelNumber nDev nParallel = .ok p) :
    ∃ out, ppc draw simulate fit junk valid dev obs nDev n parallel progress nParallel = .ok out ∧
      out.n = runSize parallel p n ∧
      out.fits = (List.zipWith fit (simulate (draw out.n)) (draw out.n)).filter valid ∧
      out.nValid = out.fits.length ∧ out.pValue = pValue obs (out.fits.map dev) := by
  have hpp := (C54_get_parallel_number nDev hDev nParallel).1 p hp
  have hp2 : getParallelNumber nDev (some (p : Int)) = .ok p := by
    unfold getParallelNumber
    simp only
    rw [if_neg (by omega), if_neg (by omega)]
    simp
  have hb := C46_parallel_batch fit (simulate (draw (runSize parallel p n))) (draw (runSize parallel p n))
    (List.replicate (runSize parallel p n) junk)
    (runSize parallel p n) (by rw [hsim, hdraw]) (hdraw _) (by simp)
  have hout : batchFit fit (simulate (draw (runSize parallel p n))) (draw (runSize parallel p n))
      (List.replicate (runSize parallel p n) junk) parallel progress nDev (some (p : Int)) =
      .ok (List.zipWith fit (simulate (draw (runSize parallel p n))) (draw (runSize parallel p n))) := by
    cases parallel with
    | false => exact hb.1 nDev _ progress p hp2
    | true => exact hb.2.1 nDev _ progress p hp2 hDev (C46_run_size p n hpp.1).2.1
  let good := (List.zipWith fit (simulate (draw (runSize parallel p n)))
    (draw (runSize parallel p n))).filter valid
  refine ⟨⟨good, pValue obs (good.map dev), runSize parallel p n, good.length⟩, ?_, rfl, rfl, rfl, rfl⟩
  simp only [ppc, hp, bind, Except.bind, hout, pure, Except.pure]
  rfl

/-- A concrete bootstrap: five requested simulations on two devices become six. -/
example : ∃ out, boot (D := Nat) (I := Nat) (R := Nat) (fun k => List.range k) (fun d x => d + x) 10 0
    (fun r => r ≠ 12) (fun r => (r : ℝ)) 13 2 5 true true none = .ok out ∧ out.n = 6 ∧
      out.fits = [10, 11, 13, 14, 15] ∧ out.nValid = 5 := by
  obtain ⟨out, h1, h2, h3, h4, _⟩ := C46_boot (fun k => List.range k) (fun k => by simp)
    (fun d x : Nat => d + x) 10 0 (fun r => r ≠ 12) (fun r => (r : ℝ)) 13 2 5 (by omega) true true none 2 rfl
    (by decide)
  refine ⟨out, h1, h2, h3.trans (by decide), ?_⟩
  rw [h4, h3]; decide

end Elisa.Infer
