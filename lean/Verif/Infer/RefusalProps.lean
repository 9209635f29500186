import Verif.Infer.CredibleProps
import Verif.Infer.SimObsProps
import Verif.Infer.FitProps
import Verif.Infer.MaxLikeProps
import Verif.Infer.CovarProps

/-!
# What is refused, and how: `simulate` (C86), `BayesFit`/`MaxLikeFit` (C43), intervals of functions (C82), response files (C20)
-/

namespace Elisa.Infer

open Elisa Elisa.Data

/-! ### C86: arguments of `simulate` -/

/-- Specification: the arguments of a simulation that do not fit each other (`n` channels). -/
inductive Malformed (i : SimInput) (n : Nat) : Prop where
  /-- lower and upper energies, or channel names, of different number -/
  | channels (h : i.emax.length ≠ n ∨ i.nchan ≠ n)
  /-- a response matrix of another size -/
  | matrix (h : i.egrid.length ≠ i.matrix.length + 1 ∨ i.ncol ≠ n)
  /-- a channel that ends before it begins -/
  | energies (k : Nat) (a b : ℝ) (h1 : i.emin[k]? = some a) (h2 : i.emax[k]? = some b) (h : b < a)
  /-- a photon grid that does not increase -/
  | grid (k : Nat) (a b : ℝ) (h1 : i.egrid[k]? = some a) (h2 : i.egrid[k + 1]? = some b) (h : b ≤ a)
  /-- a Gaussian spectrum without errors -/
  | noErrors (h1 : i.specPoisson = false) (h2 : i.specErrors = none)
  /-- errors of another number -/
  | errors (e : List ℝ) (h1 : i.specPoisson = false) (h2 : i.specErrors = some e) (h : e.length ≠ n)
  /-- some of the counts, the exposure and the type of the background are given, but not all -/
  | incomplete (h1 : ¬ (i.backCounts = none ∧ i.backExposure = none ∧ i.backPoisson = none ∧ i.backErrors = none))
      (h2 : i.backCounts = none ∨ i.backExposure = none ∨ i.backPoisson = none)
  /-- background counts of another number -/
  | backCounts (b : List ℝ) (h1 : i.backCounts = some b) (h : b.length ≠ n)
  /-- a Gaussian background without errors, or with errors of another number -/
  | backErrors (h1 : i.backPoisson = some false) (h2 : ∀ e, i.backErrors = some e → e.length ≠ n)
  /-- an array of scales of another number -/
  | scales (xs : List ℝ) (h : .inr xs ∈ [i.specArea, i.specBack, i.backArea, i.backBack]) (hl : xs.length ≠ n)

theorem respInit_error {egrid emin emax : List ℝ} {nchan ncol : Nat} {m : List (List ℝ)} {f : List ℝ} {e : PyErr}
    (h : Response.init egrid emin emax nchan ncol m f = .error e) : e = .valueError := by
  unfold Response.init at h
  split_ifs at h <;> first | exact (Except.error.inj h).symm | cases h

theorem checkSpecErrors_error {i : SimInput} {n : Nat} {e : PyErr} (h : i.checkSpecErrors n = .error e) : e = .valueError := by
  unfold SimInput.checkSpecErrors at h
  split_ifs at h
  split at h
  · exact (Except.error.inj h).symm
  · split_ifs at h
    exact (Except.error.inj h).symm

theorem checkBack_error {i : SimInput} {n : Nat} {e : PyErr} (h : i.checkBack n = .error e) : e = .valueError := by
  unfold SimInput.checkBack at h
  split_ifs at h
  split at h
  · split_ifs at h
    · exact (Except.error.inj h).symm
    · unfold SimInput.checkBackErrors at h
      split_ifs at h
      · simp [Except.map] at h
      · split at h
        · exact (Except.error.inj h).symm
        · split_ifs at h
          · exact (Except.error.inj h).symm
          · simp [Except.map] at h
  · exact (Except.error.inj h).symm

/-- **C86 (refused).**  A simulation whose arguments do not fit each other raises `ValueError`, and nothing is simulated; a model that is not
additive raises `TypeError`. -/
theorem C86_refused {σ : Type} (g : SimRng σ) (s : σ) (v : List ℝ) (i : SimInput) :
    simulate g s false v i = .error .typeError ∧
    (Malformed i i.emin.length → simulate g s true v i = .error .valueError) := by
  refine ⟨rfl, fun hm => ?_⟩
  unfold simulate
  simp only [Bool.not_true, Bool.false_eq_true, if_false]
  cases hr : Response.init i.egrid i.emin i.emax i.nchan i.ncol i.matrix i.fwhm with
  | error e => rw [respInit_error hr]; rfl
  | ok resp =>
    simp only [bind, Except.bind]
    cases he : i.checkSpecErrors i.emin.length with
    | error e => rw [checkSpecErrors_error he]
    | ok e =>
      simp only
      cases hb : i.checkBack i.emin.length with
      | error e => rw [checkBack_error hb]
      | ok b =>
        simp only
        unfold Response.init at hr
        split_ifs at hr with h1 h2 h3 h4
        obtain ⟨h1a, h1b⟩ := h1
        push Not at h2
        obtain ⟨h2a, h2b⟩ := h2
        have hfalse : Malformed i i.emin.length → i.scalesOk i.emin.length = false := by
          intro hm
          cases hm with
          | channels h => exfalso; omega
          | matrix h => exfalso; omega
          | energies k a b' e1 e2 h =>
            exfalso
            apply h3
            rw [List.any_eq_true]
            refine ⟨(a, b'), List.mem_of_getElem? (i := k) ?_, by simpa using h⟩
            rw [List.getElem?_zip_eq_some]; exact ⟨e1, e2⟩
          | grid k a b' e1 e2 h =>
            exfalso
            apply h4
            rw [List.any_eq_true]
            refine ⟨(a, b'), List.mem_of_getElem? (i := k) ?_, by simpa using h⟩
            rw [List.getElem?_zip_eq_some]
            exact ⟨e1, by rw [List.getElem?_tail]; exact e2⟩
          | noErrors e1 e2 => exfalso; simp [SimInput.checkSpecErrors, e1, e2] at he
          | errors es e1 e2 h => exfalso; simp [SimInput.checkSpecErrors, e1, e2, h] at he
          | incomplete e1 e2 =>
            exfalso
            unfold SimInput.checkBack at hb
            rw [if_neg e1] at hb
            rcases e2 with e2 | e2 | e2
            · rw [e2] at hb; simp at hb
            · rw [e2] at hb
              cases hx : i.backCounts <;> rw [hx] at hb <;> simp at hb
            · rw [e2] at hb
              cases hx : i.backCounts <;> cases hy : i.backExposure <;> rw [hx, hy] at hb <;> simp at hb
          | backCounts bc e1 h =>
            exfalso
            unfold SimInput.checkBack at hb
            rw [if_neg (by simp [e1]), e1] at hb
            cases hy : i.backExposure <;> cases hz : i.backPoisson <;> rw [hy, hz] at hb <;> simp [h] at hb
          | backErrors e1 e2 =>
            exfalso
            unfold SimInput.checkBack at hb
            rw [if_neg (by simp [e1]), e1] at hb
            cases hx : i.backCounts <;> cases hy : i.backExposure <;> rw [hx, hy] at hb
            · simp at hb
            · simp at hb
            · simp at hb
            · simp only at hb
              split_ifs at hb
              unfold SimInput.checkBackErrors at hb
              cases hz : i.backErrors with
              | none => rw [hz] at hb; simp [Except.map] at hb
              | some es => rw [hz] at hb; simp [Except.map, e2 es hz] at hb
          | scales xs h hl =>
            unfold SimInput.scalesOk
            simp only [List.mem_cons, List.not_mem_nil, or_false] at h
            rcases h with h | h | h | h <;> rw [← h] <;> simp [shapeOk, hl]
        rw [hfalse hm]
        rfl

/-- A Gaussian spectrum of two channels with one error. -/
noncomputable def exMalformed : SimInput where
  egrid := [1, 2]
  emin := [1, 2]
  emax := [2, 3]
  matrix := [[1, 1]]
  nchan := 2
  ncol := 2
  fwhm := []
  specExposure := 1
  specPoisson := false
  specErrors := some [1]
  backCounts := none
  backErrors := none
  backExposure := none
  backPoisson := none
  specArea := .inl 1
  specBack := .inl 1
  backArea := .inl 1
  backBack := .inl 1
  quality := none
  grouping := none
  ignoreBad := true

/-- Non-vacuity: it is malformed. -/
example : Malformed exMalformed exMalformed.emin.length := .errors [1] rfl rfl (by simp [exMalformed])

/-! ### C43: arguments of a fit -/

theorem checkAll_error (l : List ((String × FitData) × Stat)) (e : PyErr)
    (h : l.mapM (fun x => checkStat x.1.2 x.2) = .error e) : e = .valueError := by
  induction l with
  | nil => simp [pure, Except.pure] at h
  | cons x l ih =>
    rw [List.mapM_cons] at h
    cases hx : checkStat x.1.2 x.2 with
    | error e' =>
      have hna : ¬ Admissible x.1.2 x.2 := fun ha => by rw [((C43_check x.1.2 x.2).1).2 ha] at hx; cases hx
      have := (C43_check x.1.2 x.2).2 hna
      rw [hx] at this
      rw [hx] at h
      simp only [bind, Except.bind] at h
      rw [← Except.error.inj h]; exact Except.error.inj this
    | ok u =>
      rw [hx] at h
      cases hl : l.mapM (fun x => checkStat x.1.2 x.2) with
      | error e' =>
        rw [hl] at h
        simp only [bind, Except.bind] at h
        exact ih (by rw [hl, Except.error.inj h])
      | ok us => rw [hl] at h; simp [bind, Except.bind, pure, Except.pure] at h

theorem toList_error {A : Type} {x : OneOrMany A} {e : PyErr} (h : x.toList = .error e) : e = .valueError := by
  cases x with
  | one x => cases h
  | many xs => cases xs with
    | nil => exact (Except.error.inj h).symm
    | cons x xs => cases h

theorem statList_error {data : List (String × FitData)} {s : Option (OneOrMany String)} {e : PyErr} (h : statList data s = .error e) :
    e = .valueError := by
  cases s with
  | none => cases h
  | some s =>
    simp only [statList] at h
    cases hs : s.toList with
    | error e' => rw [hs] at h; simp only [bind, Except.bind] at h; rw [← Except.error.inj h]; exact toList_error hs
    | ok l =>
      rw [hs] at h
      simp only [bind, Except.bind] at h
      split at h
      · exact (Except.error.inj h).symm
      · cases h

theorem broadcast_error {A : Type} {n : Nat} {xs : List A} {e : PyErr} (h : broadcast n xs = .error e) : e = .valueError := by
  unfold broadcast at h
  split_ifs at h
  exact (Except.error.inj h).symm

/-- **C43 (refused).**  A fit that is refused raises `ValueError`, unless one of the models is not additive: this raises `TypeError` if the data
are fine (at least one, of different names). -/
theorem C43_refused {M : Type} (isAdd : M → Bool) (data : OneOrMany (String × FitData)) (model : OneOrMany M)
    (stat : Option (OneOrMany String)) (e : PyErr) (h : parseInput isAdd data model stat = .error e) :
    e = .valueError ∨ (e = .typeError ∧ (∃ l, data.toList = .ok l ∧ (l.map (·.1)).Nodup) ∧
      ∃ l, model.toList = .ok l ∧ ∃ m ∈ l, isAdd m = false) := by
  unfold parseInput at h
  cases hd : data.toList with
  | error e' => rw [hd] at h; simp only [bind, Except.bind] at h; left; rw [← Except.error.inj h]; exact toList_error hd
  | ok ds =>
    rw [hd] at h
    simp only [bind, Except.bind] at h
    by_cases hn : (ds.map (·.1)).dedup.length = ds.length
    · have hr : raiseIf (decide ((ds.map (·.1)).dedup.length ≠ ds.length)) .valueError = .ok () := by simp [raiseIf, hn]
      rw [hr] at h
      simp only at h
      have hnodup : (ds.map (·.1)).Nodup := by
        rw [← List.dedup_eq_self]
        exact (List.dedup_sublist _).eq_of_length (by simpa using hn)
      cases hm : model.toList with
      | error e' => rw [hm] at h; simp only at h; left; rw [← Except.error.inj h]; exact toList_error hm
      | ok ms =>
        rw [hm] at h
        simp only at h
        cases ha : ms.all isAdd with
        | false =>
          right
          have hr : raiseIf (!(ms.all isAdd)) .typeError = .error .typeError := by simp [raiseIf, ha]
          rw [hr] at h
          refine ⟨(Except.error.inj h).symm, ⟨ds, rfl, hnodup⟩, ms, rfl, ?_⟩
          simpa using ha
        | true =>
          left
          have hr : raiseIf (!(ms.all isAdd)) .typeError = .ok () := by simp [raiseIf, ha]
          rw [hr] at h
          simp only at h
          cases hs : statList ds stat with
          | error e' => rw [hs] at h; simp only at h; rw [← Except.error.inj h]; exact statList_error hs
          | ok ss =>
            rw [hs] at h
            simp only at h
            cases hb : broadcast ds.length ms with
            | error e' => rw [hb] at h; simp only at h; rw [← Except.error.inj h]; exact broadcast_error hb
            | ok ms' =>
              rw [hb] at h
              simp only at h
              cases hb' : broadcast ds.length ss with
              | error e' => rw [hb'] at h; simp only at h; rw [← Except.error.inj h]; exact broadcast_error hb'
              | ok ss' =>
                rw [hb'] at h
                simp only at h
                cases hc : (ds.zip ss').mapM (fun x => checkStat x.1.2 x.2) with
                | error e' => rw [hc] at h; simp only at h; rw [← Except.error.inj h]; exact checkAll_error _ _ hc
                | ok u => rw [hc] at h; cases h
    · left
      have hr : raiseIf (decide ((ds.map (·.1)).dedup.length ≠ ds.length)) .valueError = .error .valueError := by simp [raiseIf, hn]
      rw [hr] at h
      exact (Except.error.inj h).symm

/-- Non-vacuity: no data. -/
example : parseInput (M := Bool) id (.many []) (.one true) none = .error .valueError := rfl

/-! ### C82: functions of the parameters -/

/-- **C82 (highest-density interval of a function, refuted: the error).**  For a valid level and a sample that is not empty, the error is a `KeyError`. -/
theorem C82_hdi_fn_error {A : Type} (cl : ℝ) (hcl : 0 < cl) (f : A → ℝ) (draws : List A) (hne : draws ≠ []) :
    ciFn cl true f draws = .error .keyError := by
  have hlev : ∃ p, toUnitCl id cl = .ok p ∧ 0 < p ∧ p < 1 := by
    rcases lt_or_ge cl 1 with h | h
    · exact ⟨cl, (C48_level cl).2.1 hcl h, hcl, h⟩
    · have := (C48_level cl).2.2.1 h
      exact ⟨_, this, ((C48_level cl).2.2.2.1 _ this).1, ((C48_level cl).2.2.2.1 _ this).2.1⟩
  obtain ⟨p, hp, h0, h1⟩ := hlev
  have hne' : draws.map f ≠ [] := by simpa using hne
  obtain ⟨lo, hi, hh, _⟩ := C82_hdi p h0 h1 (draws.map f) hne'
  have hq := quantile_eq (draws.map f) 0.5 hne' (by norm_num) (by norm_num)
  unfold ciFn
  simp only [hp, hq, hh, bind, Except.bind]
  rfl

example : (0 : ℝ) < 0.683 ∧ ([1, 2] : List ℝ) ≠ [] := ⟨by norm_num, by simp⟩

/-- **C82 (the draws used for functions).**  From more than ten thousand draws, ten thousand are used, rounded down to a multiple of the number of
devices, each of them one of the draws, wherever the random positions are. -/
theorem C82_fn_sample {A : Type} (devices : Nat) (pick : Nat → Nat × Nat) (chains : List (List A))
    (hn : 10000 < chains.flatten.length) (hp : ∀ t, ∃ c, chains[(pick t).1]? = some c ∧ (pick t).2 < c.length) :
    (paramsDist devices pick chains).length = 10000 / devices * devices ∧
    (∀ x ∈ paramsDist devices pick chains, x ∈ chains.flatten) ∧
    ∀ t < 10000 / devices * devices, ∃ c x, chains[(pick t).1]? = some c ∧ c[(pick t).2]? = some x ∧
      (paramsDist devices pick chains)[t]? = some x := by
  have hd : paramsDist devices pick chains =
      (List.range (10000 / devices * devices)).filterMap fun t => chains[(pick t).1]?.bind fun c => c[(pick t).2]? := by
    unfold paramsDist
    rw [if_pos hn]
    congr 2
    have := Nat.div_add_mod 10000 devices
    rw [Nat.mul_comm] at this
    omega
  have hall : ∀ t, ∃ x, (chains[(pick t).1]?.bind fun c => c[(pick t).2]?) = some x ∧ x ∈ chains.flatten ∧
      ∃ c, chains[(pick t).1]? = some c ∧ c[(pick t).2]? = some x := by
    intro t
    obtain ⟨c, h1, h2⟩ := hp t
    refine ⟨c[(pick t).2], by simp [h1, h2], ?_, c, h1, by simp [h2]⟩
    exact List.mem_flatten.2 ⟨c, List.mem_of_getElem? h1, List.getElem_mem _⟩
  choose val hv hmem hc using hall
  have hmap : paramsDist devices pick chains = (List.range (10000 / devices * devices)).map val := by
    rw [hd, ← List.filterMap_eq_map]
    apply List.filterMap_congr
    intro t _
    rw [hv]; rfl
  refine ⟨by rw [hmap]; simp, ?_, ?_⟩
  · intro x hx
    rw [hmap] at hx
    obtain ⟨t, _, rfl⟩ := List.mem_map.1 hx
    exact hmem t
  · intro t ht
    obtain ⟨c, h1, h2⟩ := hc t
    refine ⟨c, val t, h1, h2, ?_⟩
    rw [hmap]
    simp [ht]

/-- Non-vacuity: one chain of 10001 draws on two devices. -/
example : 10000 < ([List.replicate 10001 (1 : ℝ)] : List (List ℝ)).flatten.length ∧ 10000 / 3 * 3 = 9999 := by
  refine ⟨?_, rfl⟩
  rw [List.flatten_singleton, List.length_replicate]
  norm_num

/-! ### C79: an empty search -/

/-- **C79 (empty search).**  A nested-sampling search that returned no samples raises `ValueError` instead of reporting a start. -/
theorem C79_ns_empty {V K R : Type} [AddCommMonoid K] [LinearOrder K] (e : Engines V K R) (names : List String) :
    nsBest e names (some []) = .error .valueError := rfl

/-! ### C75: composite parameters in the posterior covariance -/

/-- **C75 (composite parameters, refuted: the error).**  A request for parameters of which not all are free (as for a model with composite parameters)
raises `ValueError`, except when exactly one of them is free (`C75_posterior_composite_refuted`). -/
theorem C75_posterior_composite_error (h : ParamTable) (free : List String) (arg : ParamArg) (r : List String)
    (cols : List (List ℝ)) (hn : free.Nodup) (hl : cols.length = free.length) (h2 : 2 ≤ free.length)
    (hr : checkParams h arg = .ok r) (hk : (free.filter fun p => p ∈ r).length ≠ r.length)
    (h1 : (free.filter fun p => p ∈ r).length ≠ 1) :
    posteriorCovar h free arg [] cols = .error .valueError := by
  have hsel : ∃ M, selectMask (free.map (fun p => decide (p ∈ r)))
      (.matrix (cols.map fun a => cols.map fun b => sampleCov a b)) = .ok M ∧ M.length = (free.filter fun p => p ∈ r).length := by
    refine ⟨Grouping.applyMask (free.map (fun p => decide (p ∈ r)))
      ((cols.map fun a => cols.map fun b => sampleCov a b).map fun row => Grouping.applyMask (free.map (fun p => decide (p ∈ r))) row), ?_, ?_⟩
    · unfold selectMask
      simp only
      rw [if_neg (by simp [hl])]
    · rw [applyMask_labels free _ _ hn (by simp [hl]) []]
      simp
  obtain ⟨M, hM, hlen⟩ := hsel
  unfold posteriorCovar labelled
  rw [npCov_matrix (by omega)]
  have ha : assignAll r.length M = .error .valueError := by
    unfold assignAll
    rw [if_neg (by omega)]
    split
    · simp at hlen; omega
    · rfl
  simp only [hr, bind, Except.bind, List.map_nil, List.append_nil, hM, ha]

/-- Non-vacuity: a request for the one composite parameter. -/
example : checkParams exTable (.one "Cutoff.Ec") = .ok ["Cutoff.Ec"] ∧
    (["PowerLaw.K", "PowerLaw.alpha"].filter fun p => p ∈ ["Cutoff.Ec"]).length = 0 := ⟨by decide +kernel, by decide⟩

end Elisa.Infer

namespace Elisa.Data

/-- **C20 (refused).**  A response file whose matrix cannot be read raises `ValueError`. -/
theorem C20_refused (detchans : Option Nat) (tlmin : Option Int) (rows : List RmfRow) (e : PyErr)
    (h : readMatrix detchans tlmin rows = .error e) : e = .valueError := by
  have hrow : ∀ (f : Int) (i : Nat) (r : RmfRow) (e : PyErr), rmfRow f i r = .error e → e = .valueError := by
    intro f i r e h
    unfold rmfRow at h
    simp only at h
    split_ifs at h <;> first | exact (Except.error.inj h).symm | cases h
  have hrows : ∀ (f : Int) (rs : List RmfRow) (i : Nat) (e : PyErr), rmfRows f i rs = .error e → e = .valueError := by
    intro f rs
    induction rs with
    | nil => intro i e h; cases h
    | cons r rs ih =>
      intro i e h
      simp only [rmfRows] at h
      cases hr : rmfRow f i r with
      | error e' =>
        rw [hr] at h
        simp only [bind, Except.bind] at h
        rw [← Except.error.inj h]; exact hrow _ _ _ _ hr
      | ok a =>
        rw [hr] at h
        simp only [bind, Except.bind] at h
        cases hs : rmfRows f (i + 1) rs with
        | error e' =>
          rw [hs] at h
          simp only at h
          rw [← Except.error.inj h]; exact ih _ _ hs
        | ok b => rw [hs] at h; cases h
  unfold readMatrix at h
  cases detchans with
  | none => exact (Except.error.inj h).symm
  | some nc =>
    simp only at h
    cases hs : rmfRows (tlmin.getD 1) 0 rows with
    | error e' =>
      rw [hs] at h
      simp only [bind, Except.bind] at h
      rw [← Except.error.inj h]; exact hrows _ _ _ _ hs
    | ok m =>
      rw [hs] at h
      simp only [bind, Except.bind, cooArray] at h
      split_ifs at h <;> exact (Except.error.inj h).symm

/-- Non-vacuity: no `DETCHANS`; and a row whose groups have widths 2 and -1, with one value for two channels. -/
example : readMatrix none none [] = .error .valueError ∧ readMatrix (some 2) none [⟨2, [1, 1], [2, -1], [5]⟩] = .error .valueError := by
  refine ⟨rfl, ?_⟩
  unfold readMatrix rmfRows rmfRow
  simp [rmfRows, bind, Except.bind, pure, Except.pure, cooArray, arange]

end Elisa.Data
