import Verif.Models.Spectra

/-!
# C35–C38, C55: bin values are exact integrals of the documented continua
-/

namespace Elisa.Models.Spectra

open Real MeasureTheory

/-! ## Specification -/

/-- The photon flux of the continuum `N` in each bin of the grid. -/
noncomputable def binIntegrals (N : ℝ → ℝ) (egrid : List ℝ) : List ℝ := perBin (fun a b => ∫ E in a..b, N E) egrid

/-- All energies of the grid are positive. -/
def Positive (egrid : List ℝ) : Prop := ∀ e ∈ egrid, 0 < e

/-! ## Auxiliary facts -/

theorem perBin_length {α : Type} (f : ℝ → ℝ → α) (g : List ℝ) : (perBin f g).length = g.length - 1 := by
  simp [perBin]

theorem perBin_getElem? {α : Type} (f : ℝ → ℝ → α) (g : List ℝ) (i : ℕ) :
    (perBin f g)[i]? = match g[i]?, g[i + 1]? with
      | some a, some b => some (f a b)
      | _, _ => none := by
  unfold perBin
  rw [List.getElem?_zipWith]
  simp only [List.getElem?_tail]
  cases g[i]? <;> cases g[i + 1]? <;> rfl

theorem perBin_cons {α : Type} (f : ℝ → ℝ → α) (a b : ℝ) (g : List ℝ) :
    perBin f (a :: b :: g) = f a b :: perBin f (b :: g) := by
  simp [perBin]

theorem perBin_congr {α : Type} {f h : ℝ → ℝ → α} {g : List ℝ} (H : ∀ a ∈ g, ∀ b ∈ g, f a b = h a b) :
    perBin f g = perBin h g := by
  induction g with
  | nil => rfl
  | cons a g ih =>
    cases g with
    | nil => rfl
    | cons b g =>
      rw [perBin_cons, perBin_cons, H a (by simp) b (by simp),
        ih fun x hx y hy => H x (by simp [hx]) y (by simp [hy])]

theorem perBin_map {α β : Type} (f : ℝ → ℝ → α) (k : α → β) (g : List ℝ) :
    (perBin f g).map k = perBin (fun a b => k (f a b)) g := by
  simp [perBin, List.map_zipWith]

theorem perBin_mapGrid {α : Type} (f : ℝ → ℝ → α) (k : ℝ → ℝ) (g : List ℝ) :
    perBin f (g.map k) = perBin (fun a b => f (k a) (k b)) g := by
  induction g with
  | nil => rfl
  | cons a g ih =>
    cases g with
    | nil => rfl
    | cons b g =>
      simp only [List.map_cons] at ih ⊢
      rw [perBin_cons, perBin_cons, ih]

theorem diff_eq_perBin (g : List ℝ) : diff g = perBin (fun a b => b - a) g := rfl

theorem diff_map (k : ℝ → ℝ) (g : List ℝ) : diff (g.map k) = perBin (fun a b => k b - k a) g := by
  rw [diff_eq_perBin, perBin_mapGrid]

theorem zipWith_perBin {α β γ : Type} (k : α → β → γ) (f : ℝ → ℝ → α) (h : ℝ → ℝ → β) (g : List ℝ) :
    List.zipWith k (perBin f g) (perBin h g) = perBin (fun a b => k (f a b) (h a b)) g := by
  induction g with
  | nil => rfl
  | cons a g ih =>
    cases g with
    | nil => rfl
    | cons b g => simp only [perBin_cons, List.zipWith_cons_cons, ih]

theorem rpow_integral {a b : ℝ} (ha : 0 < a) (hb : 0 < b) {r : ℝ} (hr : r ≠ -1) :
    ∫ E in a..b, E ^ r = b ^ (r + 1) / (r + 1) - a ^ (r + 1) / (r + 1) := by
  rw [integral_rpow (Or.inr ⟨hr, Set.notMem_uIcc_of_lt ha hb⟩), sub_div]

theorem powerlaw_bin {egrid : List ℝ} (hp : Positive egrid) (alpha : ℝ) :
    powerlawIntegral egrid alpha = binIntegrals (fun E => E ^ (-alpha)) egrid := by
  unfold powerlawIntegral binIntegrals
  by_cases h : alpha = 1
  · subst h
    simp only [ne_eq, not_true_eq_false, if_false]
    rw [diff_map]
    refine perBin_congr fun a ha b hb => ?_
    have ha' := hp a ha
    have hb' := hp b hb
    simp only [rpow_neg_one]
    rw [integral_inv_of_pos ha' hb', log_div hb'.ne' ha'.ne']
  · simp only [ne_eq, h, not_false_eq_true, if_true]
    rw [diff_map]
    refine perBin_congr fun a ha b hb => ?_
    rw [rpow_integral (hp a ha) (hp b hb) (fun hc => h (by linarith)), show -alpha + 1 = 1 - alpha by ring]

/-! ## C36 -/

/-- Power law bins are `∫ K E^(-alpha) dE`, for every index including 1 and every grid of positive
energies. -/
theorem C36_exact (alpha K : ℝ) (egrid : List ℝ) (hp : Positive egrid) :
    powerLaw alpha K egrid = binIntegrals (fun E => K * E ^ (-alpha)) egrid := by
  unfold powerLaw
  rw [powerlaw_bin hp]
  unfold binIntegrals
  rw [perBin_map]
  refine perBin_congr fun a _ b _ => ?_
  rw [intervalIntegral.integral_const_mul]

example : powerLaw 1 2 [1, 2, 4] = [2 * log 2, 2 * log 2] := by
  have h4 : log 4 = 2 * log 2 := by
    rw [show (4 : ℝ) = 2 ^ (2 : ℕ) by norm_num, log_pow]; norm_num
  simp [powerLaw, powerlawIntegral, diff, h4]
  ring

/-! ## C35 -/

theorem sum_binIntegrals {N : ℝ → ℝ} {egrid : List ℝ}
    (hi : ∀ a ∈ egrid, ∀ b ∈ egrid, IntervalIntegrable N volume a b) (e₀ e₁ : ℝ) (h0 : egrid.head? = some e₀)
    (h1 : egrid.getLast? = some e₁) : (binIntegrals N egrid).sum = ∫ E in e₀..e₁, N E := by
  induction egrid generalizing e₀ with
  | nil => simp at h0
  | cons a g ih =>
    simp only [List.head?_cons, Option.some.injEq] at h0
    subst h0
    cases g with
    | nil =>
      simp only [List.getLast?_singleton, Option.some.injEq] at h1
      subst h1
      simp [binIntegrals, perBin]
    | cons b g =>
      have hl : (b :: g).getLast? = some e₁ := by simpa using h1
      have := ih (fun x hx y hy => hi x (by simp [hx]) y (by simp [hy])) b rfl hl
      unfold binIntegrals at this ⊢
      rw [perBin_cons, List.sum_cons, this]
      apply intervalIntegral.integral_add_adjacent_intervals
      · exact hi a (by simp) b (by simp)
      · exact hi b (by simp) e₁ (List.mem_cons_of_mem _ (List.mem_of_getLast? hl))

theorem rpow_intervalIntegrable {a b : ℝ} (ha : 0 < a) (hb : 0 < b) (K r : ℝ) :
    IntervalIntegrable (fun E : ℝ => K * E ^ r) volume a b := by
  apply IntervalIntegrable.const_mul
  exact intervalIntegral.intervalIntegrable_rpow (Or.inr (Set.notMem_uIcc_of_lt ha hb))

/-- The photon flux in a band is the sum over the bins of **any** partition of the band — power law. -/
theorem C35_partition (alpha K : ℝ) (egrid : List ℝ) (hp : Positive egrid) (emin emax : ℝ)
    (h0 : egrid.head? = some emin) (h1 : egrid.getLast? = some emax) :
    (powerLaw alpha K egrid).sum = ∫ E in emin..emax, K * E ^ (-alpha) := by
  rw [C36_exact alpha K egrid hp]
  exact sum_binIntegrals (fun a ha b hb => rpow_intervalIntegrable (hp a ha) (hp b hb) _ _) _ _ h0 h1

example := C35_partition 2 3 [1, 2, 5] (by simp [Positive]) 1 5 rfl rfl

theorem geomspace_head {a b : ℝ} (n : ℕ) (hn : 2 ≤ n) : (geomspace a b n).head? = some a := by
  obtain ⟨m, rfl⟩ : ∃ m, n = m + 1 := ⟨n - 1, by omega⟩
  simp [geomspace, List.range_succ_eq_map]

theorem geomspace_last {a b : ℝ} (ha : a ≠ 0) (n : ℕ) (hn : 2 ≤ n) : (geomspace a b n).getLast? = some b := by
  obtain ⟨m, rfl⟩ : ∃ m, n = m + 1 := ⟨n - 1, by omega⟩
  have hm : (m : ℝ) ≠ 0 := by
    have : 0 < m := by omega
    positivity
  simp only [geomspace, List.range_succ, List.map_append, List.map_cons, List.map_nil, List.getLast?_concat,
    Nat.cast_add, Nat.cast_one, add_sub_cancel_right, div_self hm, rpow_one]
  congr 1
  field_simp

theorem linspace_head {a b : ℝ} (n : ℕ) (hn : 2 ≤ n) : (linspace a b n).head? = some a := by
  obtain ⟨m, rfl⟩ : ∃ m, n = m + 1 := ⟨n - 1, by omega⟩
  simp [linspace, List.range_succ_eq_map]

theorem linspace_last {a b : ℝ} (n : ℕ) (hn : 2 ≤ n) : (linspace a b n).getLast? = some b := by
  obtain ⟨m, rfl⟩ : ∃ m, n = m + 1 := ⟨n - 1, by omega⟩
  have hm : (m : ℝ) ≠ 0 := by
    have : 0 < m := by omega
    positivity
  simp only [linspace, List.range_succ, List.map_append, List.map_cons, List.map_nil, List.getLast?_concat,
    Nat.cast_add, Nat.cast_one, add_sub_cancel_right, div_self hm]
  congr 1
  ring

theorem bandGrid_ends {a b : ℝ} (ha : 0 < a) (n : ℕ) (hn : 2 ≤ n) (lg : Bool) :
    (bandGrid a b n lg).head? = some a ∧ (bandGrid a b n lg).getLast? = some b := by
  cases lg
  · exact ⟨linspace_head n hn, linspace_last n hn⟩
  · exact ⟨geomspace_head n hn, geomspace_last ha.ne' n hn⟩

theorem bandGrid_pos {a b : ℝ} (ha : 0 < a) (hab : a < b) (n : ℕ) (lg : Bool) : Positive (bandGrid a b n lg) := by
  intro e he
  cases lg
  · simp only [bandGrid, Bool.false_eq_true, if_false, linspace, List.mem_map, List.mem_range] at he
    obtain ⟨i, hi, rfl⟩ := he
    have : (0 : ℝ) ≤ i / (n - 1 : ℝ) := by
      have : (1 : ℝ) ≤ n := by exact_mod_cast (by omega : 1 ≤ n)
      apply div_nonneg
      · positivity
      · linarith
    have h2 : 0 ≤ (b - a) * (i / (n - 1 : ℝ)) := mul_nonneg (by linarith) this
    linarith
  · simp only [bandGrid, if_true, geomspace, List.mem_map, List.mem_range] at he
    obtain ⟨i, hi, rfl⟩ := he
    have : 0 < b / a := by have := ha.trans hab; positivity
    positivity

/-- Consecutive edges differ. -/
theorem bandGrid_step {a b : ℝ} (ha : 0 < a) (hab : a < b) (n : ℕ) (hn : 2 ≤ n) (lg : Bool) :
    (bandGrid a b n lg).IsChain (· < ·) := by
  have hn1 : (0 : ℝ) < n - 1 := by
    have : (2 : ℝ) ≤ n := by exact_mod_cast hn
    linarith
  have key : ∀ f : ℕ → ℝ, (∀ i, f i < f (i + 1)) → ((List.range n).map f).IsChain (· < ·) := by
    intro f hf
    rw [List.isChain_map]
    have := List.isChain_range (r := fun a b => f a < f b) (n := n)
    exact this.2 fun m _ => hf m
  cases lg
  · refine key (fun i => a + (b - a) * ((i : ℝ) / ((n : ℝ) - 1))) fun i => ?_
    have : (i : ℝ) / (n - 1) < ((i + 1 : ℕ) : ℝ) / (n - 1) := by
      apply div_lt_div_of_pos_right _ hn1
      push_cast; linarith
    have := mul_lt_mul_of_pos_left this (sub_pos.2 hab)
    linarith
  · refine key (fun i => a * (b / a) ^ ((i : ℝ) / ((n : ℝ) - 1))) fun i => ?_
    have h1 : 1 < b / a := (one_lt_div ha).2 hab
    have : (i : ℝ) / (n - 1) < ((i + 1 : ℕ) : ℝ) / (n - 1) := by
      apply div_lt_div_of_pos_right _ hn1
      push_cast; linarith
    exact mul_lt_mul_of_pos_left (rpow_lt_rpow_of_exponent_lt h1 this) ha

theorem ne_mul_diff {model : ModelFn} {g : List ℝ} (hl : (model g).length = g.length - 1)
    (hc : g.IsChain (· < ·)) : List.zipWith (fun v d => v * d) (ne model g) (diff g) = model g := by
  apply List.ext_getElem?
  intro i
  rw [List.getElem?_zipWith]
  simp only [ne, List.getElem?_zipWith]
  rcases lt_or_ge i (g.length - 1) with hi | hi
  · have h1 : i < (model g).length := by omega
    have h2 : i < (diff g).length := by simpa [diff] using hi
    rw [List.getElem?_eq_getElem h1, List.getElem?_eq_getElem h2]
    simp only [Option.some.injEq]
    have hd : (diff g)[i] ≠ 0 := by
      have hlt : g[i]'(by omega) < g[i+1]'(by omega) := List.isChain_iff_getElem.1 hc i (by omega)
      simp only [diff, List.getElem_zipWith, List.getElem_tail]
      linarith
    exact div_mul_cancel₀ _ hd
  · have h2 : (model g).length ≤ i := by omega
    simp [List.getElem?_eq_none h2]

theorem powerLaw_length (alpha K : ℝ) (g : List ℝ) : (powerLaw alpha K g).length = g.length - 1 := by
  unfold powerLaw powerlawIntegral
  split_ifs <;> simp [diff]

/-- The photon flux reported for a power law in a band is the integral over the band, whatever the
number of grid points (at least two) and the spacing. -/
theorem C35_flux (alpha K emin emax : ℝ) (h0 : 0 < emin) (h1 : emin < emax) (n : ℕ) (hn : 2 ≤ n) (lg : Bool) :
    flux (powerLaw alpha K) emin emax false n lg = ∫ E in emin..emax, K * E ^ (-alpha) := by
  unfold flux
  simp only [Bool.false_eq_true, if_false]
  rw [ne_mul_diff (powerLaw_length _ _ _) (bandGrid_step h0 h1 n hn lg)]
  obtain ⟨e1, e2⟩ := bandGrid_ends (b := emax) h0 n hn lg
  exact C35_partition alpha K _ (bandGrid_pos h0 h1 n lg) _ _ e1 e2

/-- The reported fluxes of adjacent bands add up, with any grids. -/
theorem C35_adjacent_bands (alpha K e₀ e₁ e₂ : ℝ) (h0 : 0 < e₀) (h1 : e₀ < e₁) (h2 : e₁ < e₂) (n₁ n₂ n₃ : ℕ)
    (hn₁ : 2 ≤ n₁) (hn₂ : 2 ≤ n₂) (hn₃ : 2 ≤ n₃) (l₁ l₂ l₃ : Bool) :
    flux (powerLaw alpha K) e₀ e₁ false n₁ l₁ + flux (powerLaw alpha K) e₁ e₂ false n₂ l₂
      = flux (powerLaw alpha K) e₀ e₂ false n₃ l₃ := by
  rw [C35_flux _ _ _ _ h0 h1 _ hn₁, C35_flux _ _ _ _ (h0.trans h1) h2 _ hn₂,
    C35_flux _ _ _ _ h0 (h1.trans h2) _ hn₃]
  exact intervalIntegral.integral_add_adjacent_intervals
    (rpow_intervalIntegrable h0 (h0.trans h1) _ _) (rpow_intervalIntegrable (h0.trans h1) ((h0.trans h1).trans h2) _ _)

example : flux (powerLaw 2 3) 1 10 false 1000 true = flux (powerLaw 2 3) 1 10 false 7 false := by
  rw [C35_flux _ _ _ _ one_pos (by norm_num) _ (by norm_num), C35_flux _ _ _ _ one_pos (by norm_num) _ (by norm_num)]

/-! ## C38 -/

theorem rpow_integral_pos {a b : ℝ} (ha : 0 < a) (hab : a < b) (r : ℝ) : 0 < ∫ E in a..b, E ^ r := by
  apply intervalIntegral.intervalIntegral_pos_of_pos_on
  · exact intervalIntegral.intervalIntegrable_rpow (Or.inr (Set.notMem_uIcc_of_lt ha (ha.trans hab)))
  · intro x hx
    have : 0 < x := ha.trans hx.1
    positivity
  · exact hab

theorem item_band {emin emax : ℝ} (h0 : 0 < emin) (h1 : emin < emax) (alpha : ℝ) :
    item (powerlawIntegral [emin, emax] alpha) = ∫ E in emin..emax, E ^ (-alpha) := by
  rw [powerlaw_bin (by intro e he; simp at he; rcases he with rfl | rfl; exacts [h0, h0.trans h1])]
  simp [binIntegrals, perBin, item]

/-- Bins of the photon-flux normalised power law are integrals of a power law whose photon flux in
`[emin, emax]` is `F`, for every index. -/
theorem C38_photon (emin emax alpha F : ℝ) (h0 : 0 < emin) (h1 : emin < emax) :
    ∃ N : ℝ → ℝ, (∃ A, N = fun E => A * E ^ (-alpha)) ∧
      (∫ E in emin..emax, N E = F) ∧
      ∀ egrid, Positive egrid → plPhFlux emin emax alpha F egrid = binIntegrals N egrid := by
  have hpos := rpow_integral_pos h0 h1 (-alpha)
  refine ⟨fun E => F / (∫ E in emin..emax, E ^ (-alpha)) * E ^ (-alpha), ⟨_, rfl⟩, ?_, ?_⟩
  · rw [intervalIntegral.integral_const_mul, div_mul_cancel₀ _ hpos.ne']
  · intro egrid hp
    unfold plPhFlux
    simp only [item_band h0 h1]
    rw [powerlaw_bin hp]
    unfold binIntegrals
    rw [perBin_map]
    refine perBin_congr fun a _ b _ => ?_
    rw [intervalIntegral.integral_const_mul]

example := C38_photon 1 10 2 3 one_pos (by norm_num)

/-- The reported photon flux of `PLPhFlux(emin, emax)` in its band is `F`. -/
theorem C38_photon_flux (emin emax alpha F : ℝ) (h0 : 0 < emin) (h1 : emin < emax) (n : ℕ) (hn : 2 ≤ n) (lg : Bool) :
    flux (plPhFlux emin emax alpha F) emin emax false n lg = F := by
  obtain ⟨N, ⟨A, rfl⟩, hF, hN⟩ := C38_photon emin emax alpha F h0 h1
  unfold flux
  simp only [Bool.false_eq_true, if_false]
  have hp := bandGrid_pos h0 h1 n lg
  rw [ne_mul_diff (by rw [hN _ hp, binIntegrals, perBin_length]) (bandGrid_step h0 h1 n hn lg), hN _ hp]
  obtain ⟨e1, e2⟩ := bandGrid_ends (b := emax) h0 n hn lg
  rw [sum_binIntegrals (fun a ha b hb => rpow_intervalIntegrable (hp a ha) (hp b hb) _ _) _ _ e1 e2, hF]

example := C38_photon_flux 1 10 2 3 one_pos (by norm_num) 100 (by norm_num) true

/-- Bins of the energy-flux normalised power law are integrals of a power law whose energy flux in
`[emin, emax]`, in erg, is `F`, for every index. -/
theorem C38_energy (emin emax alpha F : ℝ) (h0 : 0 < emin) (h1 : emin < emax) :
    ∃ N : ℝ → ℝ, (∃ A, N = fun E => A * E ^ (-alpha)) ∧
      (∫ E in emin..emax, 1.602176634e-9 * (E * N E) = F) ∧
      ∀ egrid, Positive egrid → plEnFlux emin emax alpha F egrid = binIntegrals N egrid := by
  have hpos := rpow_integral_pos h0 h1 (-(alpha - 1))
  have hk : (0 : ℝ) < keVToErg := by unfold keVToErg; norm_num
  refine ⟨fun E => F / ((∫ E in emin..emax, E ^ (-(alpha - 1))) * keVToErg) * E ^ (-alpha), ⟨_, rfl⟩, ?_, ?_⟩
  · have : ∫ E in emin..emax, 1.602176634e-9 * (E * (F / ((∫ E in emin..emax, E ^ (-(alpha - 1))) * keVToErg) * E ^ (-alpha)))
        = ∫ E in emin..emax, (keVToErg * (F / ((∫ E in emin..emax, E ^ (-(alpha - 1))) * keVToErg))) * E ^ (-(alpha - 1)) := by
      apply intervalIntegral.integral_congr
      intro x hx
      rw [Set.uIcc_of_le h1.le] at hx
      have hx0 : 0 < x := h0.trans_le hx.1
      simp only
      rw [show -(alpha - 1) = 1 + -alpha by ring, rpow_add hx0, rpow_one]
      unfold keVToErg
      ring
    rw [this, intervalIntegral.integral_const_mul]
    field_simp
  · intro egrid hp
    unfold plEnFlux
    simp only [item_band h0 h1]
    rw [powerlaw_bin hp]
    unfold binIntegrals
    rw [perBin_map]
    refine perBin_congr fun a _ b _ => ?_
    rw [intervalIntegral.integral_const_mul]

example := C38_energy 1 10 2 3 one_pos (by norm_num)

/-! ## C37 -/

/-- The documented broken power law, add.py:345-353. -/
noncomputable def brokenPLDoc (alpha1 Eb alpha2 K : ℝ) (E : ℝ) : ℝ :=
  if E ≤ Eb then K * (E / Eb) ^ (-alpha1) else K * (E / Eb) ^ (-alpha2)

theorem brokenPL_bin (alpha1 Eb alpha2 K a b : ℝ) (ha : 0 < a) (hb : 0 < b) (hE : 0 < Eb) :
    brokenPL alpha1 Eb alpha2 K [a, b] = [K / Eb * ∫ E in a..b, (E / Eb) ^ (-(if a ≤ Eb then alpha1 else alpha2))] := by
  have hpos : Positive [a / Eb, b / Eb] := by
    intro e he
    simp at he
    rcases he with rfl | rfl <;> positivity
  have hsub : ∀ r : ℝ, ∫ E in a / Eb..b / Eb, E ^ r = (1 / Eb) * ∫ E in a..b, (E / Eb) ^ r := by
    intro r
    rw [intervalIntegral.integral_comp_div (fun x => x ^ r) hE.ne']
    rw [smul_eq_mul, ← mul_assoc, one_div, inv_mul_cancel₀ hE.ne', one_mul]
  unfold brokenPL
  simp only [List.map_cons, List.map_nil, powerlaw_bin hpos, binIntegrals, perBin, List.tail_cons, List.zipWith_cons_cons,
    List.zipWith_nil_left, List.zipWith_nil_right, List.dropLast, List.zip, List.map]
  by_cases h : a ≤ Eb
  · simp only [h, decide_true, if_true, hsub]
    congr 1; ring
  · simp only [h, decide_false, if_false, hsub, Bool.false_eq_true]
    congr 1; ring

/-- What the code does deliver: on bins that do not contain the break, `Eb` times the bin value is
the documented integral (so the documented bins when `Eb = 1`). (Missing: the factor `Eb`, and the
bin containing the break, see the `_refuted` theorems.) -/
theorem C37_up_to_scale_partial (alpha1 Eb alpha2 K a b : ℝ) (ha : 0 < a) (hab : a < b) (hE : 0 < Eb)
    (hside : b ≤ Eb ∨ Eb < a) :
    (brokenPL alpha1 Eb alpha2 K [a, b]).map (fun v => Eb * v) = binIntegrals (brokenPLDoc alpha1 Eb alpha2 K) [a, b] := by
  rw [brokenPL_bin _ _ _ _ _ _ ha (ha.trans hab) hE]
  simp only [List.map_cons, List.map_nil, binIntegrals, perBin, List.tail_cons, List.zipWith_cons_cons, List.zipWith_nil_left]
  congr 1
  rw [← mul_assoc, mul_div_cancel₀ _ hE.ne', ← intervalIntegral.integral_const_mul]
  rcases hside with h | h
  · rw [if_pos (hab.le.trans h)]
    apply intervalIntegral.integral_congr
    intro x hx
    rw [Set.uIcc_of_le hab.le] at hx
    simp [brokenPLDoc, hx.2.trans h]
  · rw [if_neg (not_le.2 h)]
    apply intervalIntegral.integral_congr
    intro x hx
    rw [Set.uIcc_of_le hab.le] at hx
    simp [brokenPLDoc, not_le.2 (h.trans_le hx.1)]

example := C37_up_to_scale_partial 1 3 2 4 1 2 one_pos (by norm_num) (by norm_num) (Or.inl (by norm_num))

theorem doc_flat {a b Eb K : ℝ} (hE : 0 < Eb) : ∫ E in a..b, brokenPLDoc 0 Eb 0 K E = K * (b - a) := by
  have : ∀ E, brokenPLDoc 0 Eb 0 K E = K := by intro E; simp [brokenPLDoc]
  simp [this, mul_comm]

/-- The normalisation is off by the factor `1 / Eb` for every break energy other than 1 keV, already
for the flat spectrum. -/
theorem C37_scale_refuted (Eb K a b : ℝ) (hE : 0 < Eb) (hE1 : Eb ≠ 1) (hK : K ≠ 0) (ha : 0 < a) (hab : a < b) :
    brokenPL 0 Eb 0 K [a, b] ≠ binIntegrals (brokenPLDoc 0 Eb 0 K) [a, b] := by
  rw [brokenPL_bin _ _ _ _ _ _ ha (ha.trans hab) hE]
  simp only [binIntegrals, perBin, List.tail_cons, List.zipWith_cons_cons, List.zipWith_nil_left, doc_flat hE]
  simp only [ite_self, neg_zero, rpow_zero, intervalIntegral.integral_const, smul_eq_mul, mul_one]
  intro h
  simp only [List.cons.injEq, and_true] at h
  have hba : b - a ≠ 0 := (sub_pos.2 hab).ne'
  have : K / Eb = K := mul_right_cancel₀ hba h
  rw [div_eq_iff hE.ne'] at this
  have : Eb = 1 := by
    have h2 : K * 1 = K * Eb := by linarith
    exact (mul_left_cancel₀ hK h2).symm
  exact hE1 this

example := C37_scale_refuted 2 3 1 2 (by norm_num) (by norm_num) (by norm_num) one_pos (by norm_num)

/-- In the bin that contains the break the low-energy index is used throughout, even when `Eb = 1`. -/
theorem C37_break_bin_refuted :
    brokenPL 0 1 1 1 [1 / 2, 2] ≠ binIntegrals (brokenPLDoc 0 1 1 1) [1 / 2, 2] := by
  rw [brokenPL_bin _ _ _ _ _ _ (by norm_num) (by norm_num) one_pos]
  simp only [binIntegrals, perBin, List.tail_cons, List.zipWith_cons_cons, List.zipWith_nil_left]
  have h1 : ∫ E in (1 / 2 : ℝ)..1, brokenPLDoc 0 1 1 1 E = 1 / 2 := by
    have : ∫ E in (1 / 2 : ℝ)..1, brokenPLDoc 0 1 1 1 E = ∫ E in (1 / 2 : ℝ)..1, (1 : ℝ) := by
      apply intervalIntegral.integral_congr
      intro x hx
      rw [Set.uIcc_of_le (by norm_num)] at hx
      simp [brokenPLDoc, hx.2]
    rw [this]; norm_num
  have h2 : ∫ E in (1 : ℝ)..2, brokenPLDoc 0 1 1 1 E = log 2 := by
    have : ∫ E in (1 : ℝ)..2, brokenPLDoc 0 1 1 1 E = ∫ E in (1 : ℝ)..2, E⁻¹ := by
      apply intervalIntegral.integral_congr
      intro x hx
      rw [Set.uIcc_of_le (by norm_num)] at hx
      simp only [brokenPLDoc, div_one]
      split_ifs with hx1
      · have : x = 1 := le_antisymm hx1 hx.1
        subst this; simp
      · rw [rpow_neg_one, one_mul]
    rw [this, integral_inv_of_pos one_pos two_pos, div_one]
  have hi1 : IntervalIntegrable (brokenPLDoc 0 1 1 1) volume (1 / 2) 1 := by
    have : IntervalIntegrable (fun _ : ℝ => (1 : ℝ)) volume (1 / 2) 1 := by simp
    refine this.congr ?_
    intro x hx
    rw [Set.uIoc_of_le (by norm_num)] at hx
    simp [brokenPLDoc, hx.2]
  have hi2 : IntervalIntegrable (brokenPLDoc 0 1 1 1) volume 1 2 := by
    have : IntervalIntegrable (fun x : ℝ => x⁻¹) volume 1 2 := by
      have h := rpow_intervalIntegrable (a := 1) (b := 2) one_pos two_pos 1 (-1)
      simpa [rpow_neg_one] using h
    refine this.congr ?_
    intro x hx
    rw [Set.uIoc_of_le (by norm_num)] at hx
    simp [brokenPLDoc, not_le.2 hx.1, rpow_neg_one]
  rw [← intervalIntegral.integral_add_adjacent_intervals hi1 hi2, h1, h2]
  intro h
  simp only [List.cons.injEq, and_true] at h
  norm_num at h
  have := log_lt_sub_one_of_pos two_pos (by norm_num)
  linarith

/-! ## C55 -/

/-- The documented line, add.py:526-533. -/
noncomputable def lorentzDoc (El sigma K : ℝ) (E : ℝ) : ℝ :=
  (K / ∫ x in Set.Ioi (0 : ℝ), 1 / ((x - El) ^ 2 + (sigma / 2) ^ 2)) / ((E - El) ^ 2 + (sigma / 2) ^ 2)

theorem lorentz_deriv (El sigma : ℝ) (hs : 0 < sigma) (x : ℝ) :
    HasDerivAt (fun e => (2 / sigma) * arctan (2 * (e - El) / sigma)) (1 / ((x - El) ^ 2 + (sigma / 2) ^ 2)) x := by
  have h1 : HasDerivAt (fun e : ℝ => 2 * (e - El) / sigma) (2 / sigma) x := by
    have := (((hasDerivAt_id x).sub_const El).const_mul 2).div_const sigma
    simpa using this
  have h2 := (h1.arctan).const_mul (2 / sigma)
  have h3 : (x - El) ^ 2 + (sigma / 2) ^ 2 ≠ 0 := by positivity
  have h4 : 1 + (2 * (x - El) / sigma) ^ 2 ≠ 0 := by positivity
  have h5 : 1 + (2 * (x - El) / sigma) ^ 2 = (2 / sigma) ^ 2 * ((x - El) ^ 2 + (sigma / 2) ^ 2) := by
    field_simp
    ring
  have h6 : 2 / sigma * (1 / (1 + (2 * (x - El) / sigma) ^ 2) * (2 / sigma)) = 1 / ((x - El) ^ 2 + (sigma / 2) ^ 2) := by
    rw [h5]
    generalize (x - El) ^ 2 + (sigma / 2) ^ 2 = y at h3
    field_simp
  rw [← h6]
  exact h2

theorem lorentz_total (El sigma : ℝ) (hs : 0 < sigma) (a : ℝ) :
    ∫ x in Set.Ioi a, 1 / ((x - El) ^ 2 + (sigma / 2) ^ 2) = (2 / sigma) * (π / 2 - arctan (2 * (a - El) / sigma)) := by
  have ht : Filter.Tendsto (fun e : ℝ => (2 / sigma) * arctan (2 * (e - El) / sigma)) Filter.atTop
      (nhds ((2 / sigma) * (π / 2))) := by
    apply Filter.Tendsto.const_mul
    refine (tendsto_nhds_of_tendsto_nhdsWithin tendsto_arctan_atTop).comp ?_
    apply Filter.Tendsto.atTop_div_const hs
    apply Filter.Tendsto.const_mul_atTop two_pos
    exact Filter.tendsto_atTop_add_const_right _ _ Filter.tendsto_id
  rw [integral_Ioi_of_hasDerivAt_of_nonneg' (fun x _ => lorentz_deriv El sigma hs x)
    (fun x _ => by positivity) ht]
  ring

theorem lorentz_bin (El sigma : ℝ) (hs : 0 < sigma) (a b : ℝ) :
    ∫ x in a..b, 1 / ((x - El) ^ 2 + (sigma / 2) ^ 2)
      = (2 / sigma) * (arctan (2 * (b - El) / sigma) - arctan (2 * (a - El) / sigma)) := by
  rw [intervalIntegral.integral_eq_sub_of_hasDerivAt (fun x _ => lorentz_deriv El sigma hs x)]
  · ring
  · apply Continuous.intervalIntegrable
    have : ∀ x : ℝ, (x - El) ^ 2 + (sigma / 2) ^ 2 ≠ 0 := fun x => by positivity
    fun_prop (disch := exact this _)

/-- Lorentz bins are integrals of the documented line, on every grid. -/
theorem C55_exact (El sigma K : ℝ) (hE : 0 ≤ El) (hs : 0 < sigma) (egrid : List ℝ) :
    lorentz El sigma K egrid = binIntegrals (lorentzDoc El sigma K) egrid := by
  unfold lorentz binIntegrals
  rw [diff_map, perBin_map]
  refine perBin_congr fun a _ b _ => ?_
  have hat : 0 ≤ arctan (2 * El / sigma) := arctan_nonneg.2 (by positivity)
  have hd : π + 2 * arctan (2 * El / sigma) ≠ 0 := by have := pi_pos; positivity
  have htot : ∫ x in Set.Ioi (0 : ℝ), 1 / ((x - El) ^ 2 + (sigma / 2) ^ 2)
      = (2 / sigma) * (π / 2 + arctan (2 * El / sigma)) := by
    rw [lorentz_total El sigma hs, show 2 * (0 - El) / sigma = -(2 * El / sigma) by ring, arctan_neg]
    ring
  have hfun : lorentzDoc El sigma K = fun E => (K / ((2 / sigma) * (π / 2 + arctan (2 * El / sigma)))) *
      (1 / ((E - El) ^ 2 + (sigma / 2) ^ 2)) := by
    funext E
    rw [lorentzDoc, htot]
    ring
  rw [hfun, intervalIntegral.integral_const_mul, lorentz_bin El sigma hs]
  have hd2 : π / 2 + arctan (2 * El / sigma) ≠ 0 := by
    intro h; apply hd; linarith
  field_simp

example := C55_exact 6 (1 / 10) 3 (by norm_num) (by norm_num) [1, 2, 5]

/-- The total photon flux of the line on `(0, ∞)` is `K`, and `sigma` is the full width at half
maximum. -/
theorem C55_normalised (El sigma K : ℝ) (hE : 0 ≤ El) (hs : 0 < sigma) :
    (∫ E in Set.Ioi (0 : ℝ), lorentzDoc El sigma K E) = K ∧
    lorentzDoc El sigma K (El + sigma / 2) = lorentzDoc El sigma K El / 2 ∧
    lorentzDoc El sigma K (El - sigma / 2) = lorentzDoc El sigma K El / 2 := by
  have hat : 0 ≤ arctan (2 * El / sigma) := arctan_nonneg.2 (by positivity)
  have htot : ∫ x in Set.Ioi (0 : ℝ), 1 / ((x - El) ^ 2 + (sigma / 2) ^ 2)
      = (2 / sigma) * (π / 2 + arctan (2 * El / sigma)) := by
    rw [lorentz_total El sigma hs, show 2 * (0 - El) / sigma = -(2 * El / sigma) by ring, arctan_neg]
    ring
  have hne : (∫ x in Set.Ioi (0 : ℝ), 1 / ((x - El) ^ 2 + (sigma / 2) ^ 2)) ≠ 0 := by
    rw [htot]; have := pi_pos; positivity
  refine ⟨?_, ?_, ?_⟩
  · have hfun : lorentzDoc El sigma K = fun E => (K / ∫ x in Set.Ioi (0 : ℝ), 1 / ((x - El) ^ 2 + (sigma / 2) ^ 2)) *
        (1 / ((E - El) ^ 2 + (sigma / 2) ^ 2)) := by
      funext E; rw [lorentzDoc]; ring
    rw [hfun, integral_const_mul, div_mul_cancel₀ _ hne]
  · simp only [lorentzDoc, add_sub_cancel_left, sub_self]
    generalize (∫ x in Set.Ioi (0 : ℝ), 1 / ((x - El) ^ 2 + (sigma / 2) ^ 2)) = I at hne
    field_simp
    ring
  · simp only [lorentzDoc, sub_sub_cancel_left, sub_self]
    generalize (∫ x in Set.Ioi (0 : ℝ), 1 / ((x - El) ^ 2 + (sigma / 2) ^ 2)) = I at hne
    field_simp
    ring

example := C55_normalised 6 (1 / 10) 3 (by norm_num) (by norm_num)

/-- Bins of the line add up over any partition, so that the flux in a band does not depend on it. -/
theorem C35_partition_lorentz (El sigma K : ℝ) (hE : 0 ≤ El) (hs : 0 < sigma) (egrid : List ℝ) (e₀ e₁ : ℝ)
    (h0 : egrid.head? = some e₀) (h1 : egrid.getLast? = some e₁) :
    (lorentz El sigma K egrid).sum = ∫ E in e₀..e₁, lorentzDoc El sigma K E := by
  rw [C55_exact El sigma K hE hs egrid]
  refine sum_binIntegrals (fun a _ b _ => ?_) _ _ h0 h1
  apply Continuous.intervalIntegrable
  unfold lorentzDoc
  have : ∀ x : ℝ, (x - El) ^ 2 + (sigma / 2) ^ 2 ≠ 0 := fun x => by positivity
  fun_prop (disch := exact this _)

example := C35_partition_lorentz 6 (1 / 10) 3 (by norm_num) (by norm_num) [1, 2, 5] 1 5 rfl rfl

end Elisa.Models.Spectra
