import Verif.Infer.Resample

/-!
# C77: repeated simulations, C78: plots show the current simulation
-/

namespace Elisa.Infer.Resample

open Elisa Elisa.Util

/-! ## C77 -/

/-- Outcomes of a simulation depend on the seed and the number of data sets only, not on the number of
devices or the progress bar. (Proved for the modelled fits: `boot_pure`, `ppc_pure`.) -/
def Pure {R : Type} (exec : Int → Nat → Req → Except PyErr R) : Prop :=
  ∃ eng : Int → Nat → Except PyErr R, ∀ seed n r, exec seed n r = eng seed n

/-- What the same call returns on a fresh result object. -/
def fresh {R : Type} (nDev : Nat) (dflt : Int) (exec : Int → Nat → Req → Except PyErr R) (r : Req) :
    Except PyErr (Option (Stored R)) := call nDev dflt exec none r

theorem truncInt_cast (z : Int) : truncInt (z : ℚ) = z := by
  unfold truncInt
  split_ifs <;> simp

/-- The stored result is the outcome of its own settings. -/
def Sound {R : Type} (exec : Int → Nat → Req → Except PyErr R) (s : Option (Stored R)) : Prop :=
  ∀ st, s = some st → ∃ r, exec st.seed st.n r = .ok st.out

theorem call_sound {R : Type} {nDev : Nat} {dflt : Int} {exec : Int → Nat → Req → Except PyErr R} {s s' : Option (Stored R)}
    {r : Req} (hs : Sound exec s) (h : call nDev dflt exec s r = .ok s') : Sound exec s' := by
  unfold call at h
  split at h
  · cases h
  · rename_i p hp
    simp only at h
    split_ifs at h with hit
    · cases h; exact hs
    · split at h
      · cases h
      · rename_i out ho
        cases h
        rintro st ⟨⟩
        exact ⟨r, ho⟩

theorem history_sound {R : Type} {nDev : Nat} {dflt : Int} {exec : Int → Nat → Req → Except PyErr R}
    (rs : List Req) : ∀ {s : Option (Stored R)}, Sound exec s → Sound exec (history nDev dflt exec s rs) := by
  induction rs with
  | nil => intro s hs; exact hs
  | cons r rs ih =>
    intro s hs
    simp only [history]
    split
    · rename_i s' h; exact ih (call_sound hs h)
    · exact ih hs

/-- **C77.** Whatever was simulated before, a call succeeds exactly when it would on a fresh object, and
then leaves exactly the result a fresh object would hold: reuse of an earlier simulation is
unobservable. -/
theorem C77_reuse_unobservable {R : Type} (nDev : Nat) (dflt : Int) (exec : Int → Nat → Req → Except PyErr R)
    (hp : Pure exec) (rs : List Req) (r : Req) :
    call nDev dflt exec (history nDev dflt exec none rs) r = fresh nDev dflt exec r := by
  have hs : Sound exec (history nDev dflt exec none rs) :=
    history_sound rs (by rintro st ⟨⟩)
  obtain ⟨eng, he⟩ := hp
  generalize history nDev dflt exec none rs = s at hs
  unfold fresh call
  cases getParallelNumber nDev r.nParallel with
  | error e => rfl
  | ok p =>
    simp only [Bool.false_eq_true, if_false]
    cases s with
    | none => rfl
    | some st =>
      simp only
      split_ifs with hit
      · simp only [Bool.and_eq_true, decide_eq_true_eq] at hit
        obtain ⟨hn, hseed⟩ := hit
        cases hsd : r.seed with
        | none => simp [hsd, sameSeed] at hseed
        | some q =>
          simp only [hsd, sameSeed, decide_eq_true_eq] at hseed
          have hq : seedOf dflt r = st.seed := by
            simp only [seedOf, hsd, ← hseed, truncInt_cast]
          obtain ⟨r', hr'⟩ := hs st rfl
          rw [hq, ← hn, he, ← he st.seed st.n r', hr']
      · rfl

/-- **C77.** The stored result after a history is that of the last successful call, run afresh. -/
theorem C77_last_success {R : Type} (nDev : Nat) (dflt : Int) (exec : Int → Nat → Req → Except PyErr R)
    (hp : Pure exec) (rs : List Req) :
    history nDev dflt exec none rs =
      ((rs.filterMap fun r => match fresh nDev dflt exec r with | .ok s => some s | .error _ => none).getLast?).getD none := by
  induction rs using List.reverseRecOn with
  | nil => rfl
  | append_singleton rs r ih =>
    have happ : ∀ (a b : List Req) (s : Option (Stored R)),
        history nDev dflt exec s (a ++ b) = history nDev dflt exec (history nDev dflt exec s a) b := by
      intro a
      induction a with
      | nil => intro b s; rfl
      | cons x a iha =>
        intro b s
        simp only [List.cons_append, history]
        split
        · exact iha b _
        · exact iha b _
    rw [happ]
    simp only [history, C77_reuse_unobservable nDev dflt exec hp rs r]
    rw [List.filterMap_append]
    cases hf : fresh nDev dflt exec r with
    | ok s => simp [hf]
    | error e => simp only [List.filterMap_cons, hf, List.filterMap_nil, List.append_nil]; exact ih

/-- **C77.** A call that fails (bad number of devices, failing or interrupted simulation) leaves the
stored result as it was; the goodness of fit is available exactly after a successful simulation and
belongs to it. -/
theorem C77_failure_and_gof {R P : Type} (nDev : Nat) (dflt : Int) (exec : Int → Nat → Req → Except PyErr R)
    (pvalues : R → P) (s : Option (Stored R)) (r : Req) :
    (∀ e, call nDev dflt exec s r = .error e → history nDev dflt exec s [r] = s) ∧
    (∀ s', call nDev dflt exec s r = .ok s' → history nDev dflt exec s [r] = s' ∧ ∃ st, s' = some st ∧
      gof pvalues s' = .ok (pvalues st.out)) ∧
    gof pvalues (none : Option (Stored R)) = .error .runtimeError := by
  refine ⟨fun e h => by simp [history, h], fun s' h => ⟨by simp [history, h], ?_⟩, rfl⟩
  unfold call at h
  split at h
  · cases h
  · simp only at h
    split_ifs at h with hit
    · cases h
      cases s with
      | none => simp at hit
      | some st => exact ⟨st, rfl, rfl⟩
    · split at h
      · cases h
      · rename_i out _
        cases h
        exact ⟨_, rfl, rfl⟩

/-- The settings recorded with the result: the rounded number of simulations and the integer seed, the
fit's own seed when none was given. -/
theorem C77_recorded {R : Type} (nDev : Nat) (hd : 1 ≤ nDev) (dflt : Int) (exec : Int → Nat → Req → Except PyErr R)
    (r : Req) (st : Stored R) (h : fresh nDev dflt exec r = .ok (some st)) :
    st.seed = (match r.seed with | none => dflt | some q => truncInt q) ∧ r.n ≤ st.n ∧ st.n < r.n + nDev ∧
      exec st.seed st.n r = .ok st.out := by
  unfold fresh call at h
  split at h
  · cases h
  · rename_i p hp
    have hpp := (C54_get_parallel_number nDev hd r.nParallel).1 p hp
    simp only [Bool.false_eq_true, if_false] at h
    split at h
    · cases h
    · rename_i out ho
      cases h
      refine ⟨rfl, ?_, ?_, ho⟩
      · cases r.parallel with
        | false => rw [(C46_run_size p r.n hpp.1).1]
        | true => exact (C46_run_size p r.n hpp.1).2.2.1
      · cases r.parallel with
        | false => rw [(C46_run_size p r.n hpp.1).1]; show r.n < r.n + nDev; omega
        | true => exact lt_of_lt_of_le (C46_run_size p r.n hpp.1).2.2.2.1 (by omega)

/-! ### The modelled simulations satisfy the hypothesis -/

variable {D I R : Type}

/-- The execution part of `boot` for a given seed (results.py:439-475), as in `Infer.boot`. -/
noncomputable def bootExec (simulate : Int → Nat → List D) (fit : D → I → R) (mle : I) (junk : R) (valid : R → Bool)
    (dev : R → ℝ) (obs : ℝ) (nDev : Nat) (seed : Int) (n : Nat) (r : Req) : Except PyErr (BootOut R) :=
  boot (simulate seed) fit mle junk valid dev obs nDev n r.parallel r.progress r.nParallel

/-- **C77** for the bootstrap as modelled in `C46_boot`: after any history of calls, the stored
bootstrap is the one of a fresh object. The recorded size is already a multiple of the number of
devices in use, so the engine is called with a size it does not round again. -/
theorem C77_boot (simulate : Int → Nat → List D) (hsim : ∀ s k, (simulate s k).length = k) (fit : D → I → R) (mle : I)
    (junk : R) (valid : R → Bool) (dev : R → ℝ) (obs : ℝ) (nDev : Nat) (hDev : 1 ≤ nDev) (dflt : Int) (r : Req) (st : Stored (BootOut R))
    (h : fresh nDev dflt (bootExec simulate fit mle junk valid dev obs nDev) r = .ok (some st)) :
    st.out.n = st.n ∧
    st.out.fits = ((simulate st.seed st.n).map fun d => fit d mle).filter valid ∧ st.out.nValid = st.out.fits.length ∧
    st.out.pValue = pValue obs (st.out.fits.map dev) := by
  obtain ⟨_, _, _, hx⟩ := C77_recorded nDev hDev dflt _ r st h
  have hst : ∃ p, getParallelNumber nDev r.nParallel = .ok p ∧ st.n = runSize r.parallel p r.n := by
    unfold fresh call at h
    split at h
    · cases h
    · rename_i p hp
      simp only [Bool.false_eq_true, if_false] at h
      split at h
      · cases h
      · cases h; exact ⟨p, hp, rfl⟩
  obtain ⟨p, hp, hn⟩ := hst
  have hpp := (C54_get_parallel_number nDev hDev r.nParallel).1 p hp
  have hround : runSize r.parallel p st.n = st.n := by
    rw [hn]
    cases r.parallel with
    | false => rfl
    | true => exact (C46_run_size p _ hpp.1).2.2.2.2 (C46_run_size p r.n hpp.1).2.1
  have h1 : st.n ≠ 1 := by
    intro e
    rw [bootExec, boot] at hx
    rw [e] at hround
    simp only [hp, bind, Except.bind, e, hround, if_true] at hx
    cases hx
  obtain ⟨out, ho, a, b, c, d⟩ := C46_boot (simulate st.seed) (hsim _) fit mle junk valid dev obs nDev st.n hDev r.parallel
    r.progress r.nParallel p hp (by rw [hround]; exact h1)
  rw [bootExec, ho] at hx
  cases hx
  rw [hround] at a b
  exact ⟨a, b, c, d⟩

/-- The bootstrap engine as a function of the seed and the rounded size only. -/
noncomputable def bootEngine (simulate : Int → Nat → List D) (fit : D → I → R) (mle : I) (valid : R → Bool)
    (dev : R → ℝ) (obs : ℝ) (seed : Int) (n : Nat) (_ : Req) : Except PyErr (BootOut R) :=
  if n = 1 then .error .assertionError
  else
    let fits := ((simulate seed n).map fun d => fit d mle).filter valid
    .ok ⟨fits, pValue obs (fits.map dev), n, fits.length⟩

theorem bootEngine_pure (simulate : Int → Nat → List D) (fit : D → I → R) (mle : I) (valid : R → Bool)
    (dev : R → ℝ) (obs : ℝ) : Pure (bootEngine simulate fit mle valid dev obs) :=
  ⟨fun s n => bootEngine simulate fit mle valid dev obs s n ⟨0, none, false, false, none⟩, fun _ _ _ => rfl⟩

/-- Calling with the real engine is calling with the idealised one. -/
theorem call_boot (simulate : Int → Nat → List D) (hsim : ∀ s k, (simulate s k).length = k) (fit : D → I → R) (mle : I)
    (junk : R) (valid : R → Bool) (dev : R → ℝ) (obs : ℝ) (nDev : Nat) (hDev : 1 ≤ nDev) (dflt : Int)
    (s : Option (Stored (BootOut R))) (r : Req) :
    call nDev dflt (bootExec simulate fit mle junk valid dev obs nDev) s r =
      call nDev dflt (bootEngine simulate fit mle valid dev obs) s r := by
  unfold call
  cases hp : getParallelNumber nDev r.nParallel with
  | error e => rfl
  | ok p =>
    have hpp := (C54_get_parallel_number nDev hDev r.nParallel).1 p hp
    have hround : runSize r.parallel p (runSize r.parallel p r.n) = runSize r.parallel p r.n := by
      cases r.parallel with
      | false => rfl
      | true => exact (C46_run_size p _ hpp.1).2.2.2.2 (C46_run_size p r.n hpp.1).2.1
    have key : bootExec simulate fit mle junk valid dev obs nDev (seedOf dflt r) (runSize r.parallel p r.n) r =
        bootEngine simulate fit mle valid dev obs (seedOf dflt r) (runSize r.parallel p r.n) r := by
      generalize seedOf dflt r = sd
      generalize hN : runSize r.parallel p r.n = N at hround ⊢
      unfold bootEngine
      split_ifs with h1
      · unfold bootExec boot
        rw [h1] at hround ⊢
        simp only [hp, bind, Except.bind, hround, if_true]
        rfl
      · obtain ⟨out, ho, a, b, c, d⟩ := C46_boot (simulate sd) (hsim _) fit mle junk valid dev obs nDev N hDev r.parallel
          r.progress r.nParallel p hp (by rw [hround]; exact h1)
        rw [bootExec, ho]
        rw [hround] at a b
        obtain ⟨f, pv, n', nv⟩ := out
        simp only at a b c d
        subst a b c d
        rfl
    simp only [key]

/-- **C77, bootstrap.** The whole life of a result object: after any calls of `boot`, with any sizes,
seeds, numbers of devices, progress bars and caught exceptions, one more call does exactly what it
would have done first. -/
theorem C77_boot_history (simulate : Int → Nat → List D) (hsim : ∀ s k, (simulate s k).length = k) (fit : D → I → R)
    (mle : I) (junk : R) (valid : R → Bool) (dev : R → ℝ) (obs : ℝ) (nDev : Nat) (hDev : 1 ≤ nDev) (dflt : Int)
    (rs : List Req) (r : Req) :
    call nDev dflt (bootExec simulate fit mle junk valid dev obs nDev)
      (history nDev dflt (bootExec simulate fit mle junk valid dev obs nDev) none rs) r =
    fresh nDev dflt (bootExec simulate fit mle junk valid dev obs nDev) r := by
  have hc := call_boot simulate hsim fit mle junk valid dev obs nDev hDev dflt
  have hh : ∀ (rs : List Req) s, history nDev dflt (bootExec simulate fit mle junk valid dev obs nDev) s rs =
      history nDev dflt (bootEngine simulate fit mle valid dev obs) s rs := by
    intro rs
    induction rs with
    | nil => intro s; rfl
    | cons x rs ih =>
      intro s
      simp only [history, hc]
      split
      · exact ih _
      · exact ih _
  rw [hc, hh, fresh, hc]
  exact C77_reuse_unobservable nDev dflt _ (bootEngine_pure ..) rs r

/-- The execution part of `ppc` for a given seed (results.py:2065-2113), as in `Infer.ppc`. -/
noncomputable def ppcExec (draw : Int → Nat → List I) (simulate : Int → List I → List D) (fit : D → I → R) (junk : R)
    (valid : R → Bool) (dev : R → ℝ) (obs : ℝ) (nDev : Nat) (seed : Int) (n : Nat) (r : Req) : Except PyErr (BootOut R) :=
  ppc (draw seed) (simulate seed) fit junk valid dev obs nDev n r.parallel r.progress r.nParallel

/-- The predictive check as a function of the seed and the rounded size only. -/
noncomputable def ppcEngine (draw : Int → Nat → List I) (simulate : Int → List I → List D) (fit : D → I → R)
    (valid : R → Bool) (dev : R → ℝ) (obs : ℝ) (seed : Int) (n : Nat) (_ : Req) : Except PyErr (BootOut R) :=
  let fits := (List.zipWith fit (simulate seed (draw seed n)) (draw seed n)).filter valid
  .ok ⟨fits, pValue obs (fits.map dev), n, fits.length⟩

theorem call_ppc (draw : Int → Nat → List I) (hdraw : ∀ s k, (draw s k).length = k) (simulate : Int → List I → List D)
    (hsim : ∀ s ps, (simulate s ps).length = ps.length) (fit : D → I → R) (junk : R) (valid : R → Bool) (dev : R → ℝ)
    (obs : ℝ) (nDev : Nat) (hDev : 1 ≤ nDev) (dflt : Int) (s : Option (Stored (BootOut R))) (r : Req) :
    call nDev dflt (ppcExec draw simulate fit junk valid dev obs nDev) s r =
      call nDev dflt (ppcEngine draw simulate fit valid dev obs) s r := by
  unfold call
  cases hp : getParallelNumber nDev r.nParallel with
  | error e => rfl
  | ok p =>
    have hpp := (C54_get_parallel_number nDev hDev r.nParallel).1 p hp
    have hround : runSize r.parallel p (runSize r.parallel p r.n) = runSize r.parallel p r.n := by
      cases r.parallel with
      | false => rfl
      | true => exact (C46_run_size p _ hpp.1).2.2.2.2 (C46_run_size p r.n hpp.1).2.1
    have key : ppcExec draw simulate fit junk valid dev obs nDev (seedOf dflt r) (runSize r.parallel p r.n) r =
        ppcEngine draw simulate fit valid dev obs (seedOf dflt r) (runSize r.parallel p r.n) r := by
      generalize seedOf dflt r = sd
      generalize hN : runSize r.parallel p r.n = N at hround ⊢
      obtain ⟨out, ho, a, b, c, d⟩ := C46_ppc (draw sd) (hdraw sd) (simulate sd) (hsim sd) fit junk valid dev obs nDev N hDev
        r.parallel r.progress r.nParallel p hp
      rw [ppcExec, ho]
      rw [hround] at a
      obtain ⟨f, pv, n', nv⟩ := out
      simp only at a b c d
      subst a b c d
      rfl
    simp only [key]

/-- **C77, predictive check.** As `C77_boot_history`, for `ppc`. -/
theorem C77_ppc_history (draw : Int → Nat → List I) (hdraw : ∀ s k, (draw s k).length = k) (simulate : Int → List I → List D)
    (hsim : ∀ s ps, (simulate s ps).length = ps.length) (fit : D → I → R) (junk : R) (valid : R → Bool) (dev : R → ℝ)
    (obs : ℝ) (nDev : Nat) (hDev : 1 ≤ nDev) (dflt : Int) (rs : List Req) (r : Req) :
    call nDev dflt (ppcExec draw simulate fit junk valid dev obs nDev)
      (history nDev dflt (ppcExec draw simulate fit junk valid dev obs nDev) none rs) r =
    fresh nDev dflt (ppcExec draw simulate fit junk valid dev obs nDev) r := by
  have hc := call_ppc draw hdraw simulate hsim fit junk valid dev obs nDev hDev dflt
  have hh : ∀ (rs : List Req) s, history nDev dflt (ppcExec draw simulate fit junk valid dev obs nDev) s rs =
      history nDev dflt (ppcEngine draw simulate fit valid dev obs) s rs := by
    intro rs
    induction rs with
    | nil => intro s; rfl
    | cons x rs ih =>
      intro s
      simp only [history, hc]
      split
      · exact ih _
      · exact ih _
  rw [hc, hh, fresh, hc]
  exact C77_reuse_unobservable nDev dflt _
    ⟨fun s n => ppcEngine draw simulate fit valid dev obs s n ⟨0, none, false, false, none⟩, fun _ _ _ => rfl⟩ rs r

/-- Non-vacuity: the second request is served from the first, the third is not. -/
example : history 4 42 (fun s n _ => .ok (s, n)) none
    [⟨10, some 7, true, true, none⟩, ⟨12, some 7, false, true, none⟩, ⟨12, none, true, false, some 3⟩] =
    some ⟨12, 42, (42, 12)⟩ := by decide +kernel

/-! ### Posterior draws -/

/-- **C77.** Every row of the posterior sample used for derived quantities is one joint draw of all
parameters (never a mixture of draws); a posterior of at most 10000 draws is used completely and in
order; a larger one is thinned to at most 10000 rows, a multiple of the number of devices. -/
theorem C77_joint_draws {V : Type} (dev chains draws : Nat) (hd : 1 ≤ dev) (hd2 : dev ≤ 10000) (rng : Nat → List (Nat × Nat))
    (hr : ∀ n, (rng n).length = n ∧ ∀ ij ∈ rng n, ij.1 < chains ∧ ij.2 < draws)
    (post : List (String × (Nat → Nat → V))) :
    ∃ idx : List (Nat × Nat), (∀ ij ∈ idx, ij.1 < chains ∧ ij.2 < draws) ∧
      paramsDist dev chains draws rng post = post.map (fun kv => (kv.1, idx.map fun ij => kv.2 ij.1 ij.2)) ∧
      (chains * draws ≤ 10000 → idx.length = chains * draws ∧
        ∀ i j, i < chains → j < draws → idx[i * draws + j]? = some (i, j)) ∧
      (10000 < chains * draws → idx.length ≤ 10000 ∧ 10000 - dev < idx.length ∧ dev ∣ idx.length) := by
  have hall : (allIdx chains draws).length = chains * draws := by
    simp [allIdx, List.length_flatMap]
  by_cases h : 10000 < chains * draws
  · refine ⟨rng (10000 - 10000 % dev), (hr _).2, by simp [paramsDist, h, pick], by omega, fun _ => ?_⟩
    rw [(hr _).1]
    have := Nat.mod_lt 10000 hd
    refine ⟨by omega, by omega, Nat.dvd_sub_mod 10000⟩
  · refine ⟨allIdx chains draws, ?_, by simp [paramsDist, h, pick], ?_, by omega⟩
    · intro ij hij
      simp only [allIdx, List.mem_flatMap, List.mem_range, List.mem_map] at hij
      obtain ⟨i, hi, j, hj, rfl⟩ := hij
      exact ⟨hi, hj⟩
    · intro _
      refine ⟨hall, ?_⟩
      have key : ∀ (c i j : Nat), i < c → j < draws → (allIdx c draws)[i * draws + j]? = some (i, j) := by
        intro c
        induction c with
        | zero => intro i j h; omega
        | succ c ih =>
          intro i j hi hj
          have e : allIdx (c + 1) draws = allIdx c draws ++ (List.range draws).map fun j => (c, j) := by
            simp [allIdx, List.range_succ]
          have hl : (allIdx c draws).length = c * draws := by
            simp [allIdx, List.length_flatMap]
          rw [e]
          by_cases hic : i < c
          · have h1 : i * draws + j < c * draws := by
              calc i * draws + j < i * draws + draws := by omega
                _ = (i + 1) * draws := by ring
                _ ≤ c * draws := Nat.mul_le_mul_right _ hic
            rw [List.getElem?_append_left (by omega)]
            exact ih i j hic hj
          · have hic' : i = c := by omega
            subst hic'
            rw [List.getElem?_append_right (by omega), hl, Nat.add_sub_cancel_left]
            simp [hj]
      exact fun i j hi hj => key chains i j hi hj

/-- **C77 (restricted).** When every fit of a predictive check is valid, row `i` of the replicated
parameters, of the simulated data and of the fits belong to the same draw.

Missing: invalid fits, `C77_ppc_rows_refuted`. -/
theorem C77_ppc_rows_partial (valid : R → Bool) (draws : List I) (data : List D) (fits : List R)
    (h1 : data.length = draws.length) (h2 : fits.length = draws.length) (hv : ∀ f ∈ fits, valid f = true) :
    let rec_ := ppcRecord valid draws data fits
    rec_.paramsRep = draws ∧ rec_.data = data ∧ rec_.fits = fits := by
  simp only [ppcRecord, true_and]
  constructor
  · rw [List.filter_eq_self.2]
    · exact List.map_fst_zip (by omega)
    · intro x hx
      exact hv _ (List.of_mem_zip hx).2
  · exact List.filter_eq_self.2 hv

/-- The data and fits always stay aligned with each other. -/
theorem C77_ppc_data_fits (valid : R → Bool) (draws : List I) (data : List D) (fits : List R)
    (h : data.length = fits.length) :
    (ppcRecord valid draws data fits).data.zip (ppcRecord valid draws data fits).fits =
      (data.zip fits).filter fun x => valid x.2 := by
  simp only [ppcRecord]
  induction data generalizing fits with
  | nil => simp
  | cons d data ih =>
    cases fits with
    | nil => simp at h
    | cons f fits =>
      have := ih fits (by simpa using h)
      by_cases hv : valid f
      · simp [hv, this]
      · simp [hv, this]

/-- **C77 is violated** for predictive checks with an invalid fit: the replicated parameters keep the
rows that the data and the fits lost, so that rows no longer correspond. -/
theorem C77_ppc_rows_refuted :
    let rec_ := ppcRecord (fun f : Nat => f ≠ 0) [1, 2, 3] [10, 20, 30] [100, 0, 300]
    rec_.paramsRep.length ≠ rec_.data.length ∧ rec_.paramsRep[1]? = some 2 ∧ rec_.data[1]? = some 30 := by
  decide

/-! ## C78: plot caches -/

section
variable {O A V : Type} [DecidableEq A]

/-- Entries were computed from the simulation with the remembered address. -/
def CacheSound (f : Option O → A → V) (seen : List (Nat × O)) (s : PlotCache O A V) : Prop :=
  (∀ x, s.cur = some x → x ∈ seen) ∧
  (match s.oldId with
   | none => ∀ a v, s.entries.lookup a = some v → v = f none a
   | some id => (∀ o, (id, o) ∈ seen → ∀ a v, s.entries.lookup a = some v → v = f (some o) a))

/-- The simulations of a history with their addresses. -/
def sims (ops : List (PlotOp O A)) : List (Nat × O) :=
  ops.filterMap fun op => match op with | .simulated id o => some (id, o) | .query _ => none

/-- The addresses of different simulations differ. -/
def Unique (seen : List (Nat × O)) : Prop := ∀ id o o', (id, o) ∈ seen → (id, o') ∈ seen → o = o'

theorem query_value (f : Option O → A → V) {seen : List (Nat × O)} {s : PlotCache O A V}
    (hs : CacheSound f seen s) (a : A) : (s.query f a).2 = f (s.cur.map Prod.snd) a := by
  unfold PlotCache.query
  simp only
  by_cases hid : curId s = s.oldId
  · simp only [hid, ne_eq, not_true_eq_false, if_false]
    cases hl : s.entries.lookup a with
    | none => rfl
    | some v =>
      simp only
      have h2 := hs.2
      cases hc : s.cur with
      | none =>
        have : s.oldId = none := by rw [← hid]; simp [curId, hc]
        rw [this] at h2
        exact h2 a v hl
      | some x =>
        obtain ⟨id, o⟩ := x
        have : s.oldId = some id := by rw [← hid]; simp [curId, hc]
        rw [this] at h2
        exact h2 o (hs.1 _ hc) a v hl
  · simp [hid]

theorem query_sound (f : Option O → A → V) {seen : List (Nat × O)} (hu : Unique seen) {s : PlotCache O A V}
    (hs : CacheSound f seen s) (a : A) : CacheSound f seen (s.query f a).1 ∧ (s.query f a).1.cur = s.cur := by
  have hcur : (s.query f a).1.cur = s.cur := by
    unfold PlotCache.query; simp only; split <;> rfl
  have hold : (s.query f a).1.oldId = curId s := by
    unfold PlotCache.query; simp only; split <;> rfl
  refine ⟨⟨by rw [hcur]; exact hs.1, ?_⟩, hcur⟩
  have hent : ∀ a' v, (s.query f a).1.entries.lookup a' = some v → v = f (s.cur.map Prod.snd) a' := by
    intro a' v hv
    have hbase : ∀ a' v, (if curId s ≠ s.oldId then [] else s.entries).lookup a' = some v → v = f (s.cur.map Prod.snd) a' := by
      intro a' v hv
      split_ifs at hv with hid
      · simp at hv
      · have hq := query_value f hs a'
        rw [← hq]
        push Not at hid
        simp only [PlotCache.query, ne_eq, hid, not_true_eq_false, if_false, hv]
    unfold PlotCache.query at hv
    simp only at hv
    split at hv
    · exact hbase a' v hv
    · rename_i hnone
      simp only [List.lookup_cons] at hv
      split at hv
      · rename_i heq
        simp only [beq_iff_eq] at heq
        subst heq
        cases hv
        rfl
      · exact hbase a' v hv
  rw [hold]
  cases hc : s.cur with
  | none =>
    simp only [curId, hc, Option.map_none]
    intro a' v hv
    have := hent a' v hv
    rwa [hc] at this
  | some x =>
    obtain ⟨id, o⟩ := x
    simp only [curId, hc, Option.map_some]
    intro o' ho' a' v hv
    have := hent a' v hv
    rw [hc] at this
    rw [hu id o' o ho' (hs.1 _ hc)]
    exact this

theorem run_sound (f : Option O → A → V) (seen : List (Nat × O)) (hu : Unique seen) (ops : List (PlotOp O A))
    (hops : ∀ x ∈ sims ops, x ∈ seen) : ∀ s : PlotCache O A V, CacheSound f seen s → CacheSound f seen (s.run f ops) := by
  induction ops with
  | nil => intro s hs; exact hs
  | cons op ops ih =>
    intro s hs
    have hops' : ∀ x ∈ sims ops, x ∈ seen := by
      intro x hx
      apply hops
      cases op with
      | simulated id o => simp only [sims, List.filterMap_cons]; exact List.mem_cons_of_mem _ hx
      | query a => simpa [sims, List.filterMap_cons] using hx
    simp only [PlotCache.run, List.foldl_cons]
    refine ih hops' _ ?_
    cases op with
    | simulated id o =>
      refine ⟨?_, hs.2⟩
      rintro x ⟨⟩
      exact hops _ (by simp [sims])
    | query a => exact (query_sound f hu hs a).1

/-- The simulation a history ends with. -/
def lastSim (start : Option (Nat × O)) (ops : List (PlotOp O A)) : Option O :=
  (((sims ops).getLast?).or start).map Prod.snd

theorem run_cur (f : Option O → A → V) (ops : List (PlotOp O A)) : ∀ s : PlotCache O A V,
    (s.run f ops).cur = ((sims ops).getLast?).or s.cur := by
  induction ops with
  | nil => intro s; simp [PlotCache.run, sims]
  | cons op ops ih =>
    intro s
    simp only [PlotCache.run, List.foldl_cons]
    have := ih (s.step f op)
    simp only [PlotCache.run] at this
    rw [this]
    cases op with
    | simulated id o =>
      simp only [sims, List.filterMap_cons, PlotCache.step]
      cases hl : (List.filterMap (fun op : PlotOp O A => match op with | .simulated id o => some (id, o) | .query _ => none) ops) with
      | nil => simp
      | cons x xs => rw [List.getLast?_cons_cons, List.getLast?_cons]; simp
    | query a =>
      have : (s.step f (.query a)).cur = s.cur := by
        simp only [PlotCache.step, PlotCache.query]; split <;> rfl
      rw [this]
      simp [sims, List.filterMap_cons]

/-- **C78 (restricted).** As long as no address is used twice, every plotted quantity that is cached
shows the current simulation: in any history of simulations and plots, what the next plot shows is
computed from the last simulation (or from the absence of one).

Missing: Python reusing the address of a discarded simulation, `C78_stale_plot_refuted`. -/
theorem C78_plots_current_partial (f : Option O → A → V) (start : Option (Nat × O)) (ops : List (PlotOp O A))
    (hn : ((start.toList ++ sims ops).map Prod.fst).Nodup) (a : A) :
    (((PlotCache.create start : PlotCache O A V).run f ops).query f a).2 = f (lastSim start ops) a := by
  have hu : Unique (start.toList ++ sims ops) := by
    intro id o o' h h'
    have := List.inj_on_of_nodup_map hn h h' rfl
    cases this; rfl
  have h0 : CacheSound f (start.toList ++ sims ops) (PlotCache.create start : PlotCache O A V) := by
    refine ⟨?_, ?_⟩
    · intro x hx
      simp only [PlotCache.create] at hx
      simp [hx]
    · cases start <;> simp [PlotCache.create]
  have h1 := run_sound f _ hu ops (fun x hx => List.mem_append_right _ hx) _ h0
  rw [query_value f h1 a, run_cur]
  rfl

/-- A plot made right after a simulation that follows a plot is always current: the address cannot be
reused yet. -/
theorem C78_after_plot (f : Option O → A → V) (s : PlotCache O A V) (a₀ a : A) (id : Nat) (o : O)
    (hid : curId s ≠ some id) :
    ((((s.query f a₀).1.step f (.simulated id o)).query f a)).2 = f (some o) a := by
  have hold : (s.query f a₀).1.oldId = curId s := by
    unfold PlotCache.query; simp only; split <;> rfl
  have key : ∀ t : PlotCache O A V, curId t ≠ t.oldId → (t.query f a).2 = f (t.cur.map Prod.snd) a := by
    intro t ht
    unfold PlotCache.query
    simp [ht]
  refine key _ ?_
  show some id ≠ (s.query f a₀).1.oldId
  rw [hold]
  exact Ne.symm hid

end

/-- **C78 is violated** when the address of a discarded simulation is used again: plot, simulate twice,
plot. The second simulation is stored elsewhere while the first is alive; the third may take the
address of the first; the cache then believes that nothing changed and the plot shows the first
simulation. -/
theorem C78_stale_plot_refuted :
    ∃ ops : List (PlotOp String Nat), Allocatable (simIds ops) ∧
      lastSim none ops = some "third" ∧
      (((PlotCache.create none : PlotCache String Nat (Option String × Nat)).run (fun o a => (o, a)) ops).query
        (fun o a => (o, a)) 0).2 = (some "first", 0) := by
  refine ⟨[.simulated 1 "first", .query 0, .simulated 2 "second", .simulated 1 "third"], ?_, ?_, ?_⟩
  · simp [simIds, Allocatable]
  · rfl
  · decide

/-- Non-vacuity of `C78_plots_current_partial`. -/
example : (((PlotCache.create none : PlotCache String Nat (Option String × Nat)).run (fun o a => (o, a))
    [.query 5, .simulated 1 "first", .query 0, .simulated 2 "second", .query 0]).query (fun o a => (o, a)) 0).2 =
    (some "second", 0) :=
  C78_plots_current_partial _ none [.query 5, .simulated 1 "first", .query 0, .simulated 2 "second", .query 0]
    (by decide) 0

/-- `C77_reuse_unobservable`: asking for seven after twelve and ten. -/
example : call 4 42 (fun s n _ => .ok (s, n)) (history 4 42 (fun s n _ => .ok (s, n)) none
    [⟨10, some 7, true, true, none⟩, ⟨12, some 7, false, true, none⟩]) ⟨7, some 7, true, true, none⟩ =
    fresh 4 42 (fun s n _ => .ok (s, n)) ⟨7, some 7, true, true, none⟩ :=
  C77_reuse_unobservable 4 42 _ ⟨fun s n => .ok (s, n), fun _ _ _ => rfl⟩ _ _

/-- `C77_recorded`: ten simulations over four devices, rounded up to twelve. -/
example : ∃ st, fresh 4 42 (fun s n _ => .ok (s, n)) ⟨10, some 7, true, true, none⟩ = .ok (some st) ∧ st.seed = 7 ∧ 10 ≤ st.n ∧ st.n < 14 := by
  have h : fresh 4 42 (fun s n _ => .ok (s, n)) ⟨10, some 7, true, true, none⟩ = .ok (some ⟨12, 7, (7, 12)⟩) := by decide +kernel
  obtain ⟨_, h2, h3, _⟩ := C77_recorded 4 (by norm_num) 42 _ _ _ h
  exact ⟨_, h, rfl, h2, h3⟩

/-- `C77_joint_draws` and `C77_ppc_data_fits`: four chains of five draws on two devices; three simulations of which the second fit failed. -/
example (rng : Nat → List (Nat × Nat)) (hr : ∀ n, (rng n).length = n ∧ ∀ ij ∈ rng n, ij.1 < 4 ∧ ij.2 < 5) :
    (∃ idx : List (Nat × Nat), idx.length = 20 ∧ paramsDist 2 4 5 rng [("PL.K", fun i j => 10 * i + j)] = [("PL.K", idx.map fun ij => 10 * ij.1 + ij.2)]) ∧
    (ppcRecord (fun x : Nat => x ≠ 0) ["p", "q", "r"] ["a", "b", "c"] [1, 0, 3]).data = ["a", "c"] := by
  obtain ⟨idx, _, h1, h2, _⟩ := C77_joint_draws 2 4 5 (by norm_num) (by norm_num) rng hr [("PL.K", fun i j => 10 * i + j)]
  exact ⟨⟨idx, (h2 (by norm_num)).1, h1⟩, by decide⟩

/-- **C77 (seeds that are not integers).**  The recorded seed has the sign of the given one and is the largest integer that is not larger in absolute value. -/
theorem C77_seed {R : Type} (nDev : Nat) (hd : 1 ≤ nDev) (dflt : Int) (exec : Int → Nat → Req → Except PyErr R)
    (r : Req) (st : Stored R) (h : fresh nDev dflt exec r = .ok (some st)) (q : ℚ) (hq : r.seed = some q) :
    |(st.seed : ℚ)| ≤ |q| ∧ |q| < |(st.seed : ℚ)| + 1 ∧ 0 ≤ (st.seed : ℚ) * q := by
  obtain ⟨h1, -⟩ := C77_recorded nDev hd dflt exec r st h
  rw [hq] at h1
  simp only at h1
  rw [h1]
  unfold truncInt
  split_ifs with h0
  · have hf : (0 : ℚ) ≤ (⌊q⌋ : ℚ) := by exact_mod_cast Int.floor_nonneg.2 h0
    rw [abs_of_nonneg hf, abs_of_nonneg h0]
    exact ⟨Int.floor_le q, Int.lt_floor_add_one q, mul_nonneg hf h0⟩
  · have h0' : q < 0 := not_le.1 h0
    have hf : (⌈q⌉ : ℚ) ≤ 0 := by exact_mod_cast Int.ceil_le.2 (by exact_mod_cast h0'.le)
    rw [abs_of_nonpos hf, abs_of_nonpos h0'.le]
    refine ⟨neg_le_neg (Int.le_ceil q), ?_, mul_nonneg_of_nonpos_of_nonpos hf h0'.le⟩
    have := Int.ceil_lt_add_one q
    linarith

example : ∃ st, fresh 4 42 (fun s n _ => .ok (s, n)) ⟨10, some (-3 / 2), true, true, none⟩ = .ok (some st) ∧ st.seed = -1 :=
  ⟨⟨12, -1, (-1, 12)⟩, by decide +kernel, rfl⟩

end Elisa.Infer.Resample
