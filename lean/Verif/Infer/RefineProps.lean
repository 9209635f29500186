import Verif.Infer.StackProps
import Verif.Models.DensityProps

/-!
# C141: finer photon-energy bins with the same response

A response can list the same energies in fewer or more bins: a bin may be split, both parts keeping its response.
-/

namespace Elisa.Infer.Refine

open Elisa Elisa.Infer Elisa.Models.Spectra MeasureTheory

/-! ## Specification -/

/-- A bin of the coarse response: the energies at which it is split, its upper edge, and its row of the matrix (one entry per channel). -/
structure Bin where
  cuts : List ℝ
  hi : ℝ
  row : List ℝ

/-- Bin edges of the coarse response that begins at `lo`. -/
def coarseGrid (lo : ℝ) (bs : List Bin) : List ℝ := lo :: bs.map Bin.hi

/-- Bin edges of the fine response. -/
def fineGrid (lo : ℝ) (bs : List Bin) : List ℝ := lo :: bs.flatMap fun b => b.cuts ++ [b.hi]

/-- Rows of the fine response: every part has the row of its bin. -/
def fineRows (bs : List Bin) : List (List ℝ) := bs.flatMap fun b => List.replicate (b.cuts.length + 1) b.row

/-- The values of a model are the integrals of its photon spectrum `N` over the bins, for bins at positive energies. -/
structure Exact (model : List ℝ → List ℝ) (N : ℝ → ℝ) : Prop where
  bins : ∀ g, Positive g → model g = binIntegrals N g
  integrable : ∀ x y, 0 < x → 0 < y → IntervalIntegrable N volume x y

/-! ## Folding -/

/-- A fold as a sum over a list. -/
def fold (j : Nat) (rows : List (List ℝ)) (u : List ℝ) : ℝ := (List.zipWith (fun row v => nth row j * v) rows u).sum

theorem fold_eq (j : Nat) (rows : List (List ℝ)) (u : List ℝ) (h : u.length = rows.length) :
    ∑ r ∈ Finset.range rows.length, nth (rows.getD r []) j * nth u r = fold j rows u := by
  unfold fold
  induction rows generalizing u with
  | nil => simp
  | cons row rows ih =>
    cases u with
    | nil => simp at h
    | cons v u =>
      rw [List.length_cons, Finset.sum_range_succ', List.zipWith_cons_cons, List.sum_cons]
      have := ih u (by simpa using h)
      simp only [List.getD_cons_succ, List.getD_cons_zero, nth] at this ⊢
      rw [this]
      ring

theorem perBin_append (f : ℝ → ℝ → ℝ) (a hi : ℝ) (cuts rest : List ℝ) : perBin f (a :: (cuts ++ hi :: rest)) = perBin f (a :: (cuts ++ [hi])) ++ perBin f (hi :: rest) := by
  induction cuts generalizing a with
  | nil => simp [perBin_cons, perBin]
  | cons c cuts ih => simp only [List.cons_append, perBin_cons, ih]

theorem fold_append (j : Nat) (r1 r2 : List (List ℝ)) (u1 u2 : List ℝ) (h : r1.length = u1.length) : fold j (r1 ++ r2) (u1 ++ u2) = fold j r1 u1 + fold j r2 u2 := by
  unfold fold
  rw [List.zipWith_append h, List.sum_append]

theorem fold_replicate (j : Nat) (row u : List ℝ) : fold j (List.replicate u.length row) u = nth row j * u.sum := by
  unfold fold
  induction u with
  | nil => simp
  | cons v u ih =>
    rw [List.length_cons, List.replicate_succ, List.zipWith_cons_cons, List.sum_cons, ih, List.sum_cons]
    ring

theorem fineGrid_cons (lo : ℝ) (b : Bin) (bs : List Bin) : fineGrid lo (b :: bs) = lo :: (b.cuts ++ b.hi :: bs.flatMap fun b => b.cuts ++ [b.hi]) := by
  simp [fineGrid]

theorem lengths (N : ℝ → ℝ) (lo : ℝ) (bs : List Bin) : (binIntegrals N (fineGrid lo bs)).length = (fineRows bs).length ∧ (binIntegrals N (coarseGrid lo bs)).length = bs.length := by
  unfold binIntegrals
  rw [perBin_length, perBin_length]
  constructor
  · unfold fineGrid fineRows
    induction bs with
    | nil => rfl
    | cons b bs ih =>
      simp only [List.length_cons, Nat.add_sub_cancel, List.flatMap_cons, List.length_append, List.length_replicate, List.length_nil] at ih ⊢
      omega
  · simp [coarseGrid]

theorem fold_refine (j : Nat) (N : ℝ → ℝ) (hN : ∀ x y, 0 < x → 0 < y → IntervalIntegrable N volume x y) (lo : ℝ) (bs : List Bin) (hp : Positive (fineGrid lo bs)) :
    fold j (fineRows bs) (binIntegrals N (fineGrid lo bs)) = fold j (bs.map Bin.row) (binIntegrals N (coarseGrid lo bs)) := by
  induction bs generalizing lo with
  | nil => rfl
  | cons b bs ih =>
    rw [fineGrid_cons] at hp
    have hp2 : Positive (fineGrid b.hi bs) := fun e he => hp e (by
      unfold fineGrid at he
      exact List.mem_cons_of_mem _ (List.mem_append_right _ he))
    have hp1 : Positive (lo :: (b.cuts ++ [b.hi])) := by
      intro e he
      apply hp
      simp only [List.mem_cons, List.mem_append, List.not_mem_nil, or_false] at he ⊢
      tauto
    have e1 : binIntegrals N (fineGrid lo (b :: bs)) = binIntegrals N (lo :: (b.cuts ++ [b.hi])) ++ binIntegrals N (fineGrid b.hi bs) := by
      rw [fineGrid_cons]
      exact perBin_append _ _ _ _ _
    have e2 : fineRows (b :: bs) = List.replicate (b.cuts.length + 1) b.row ++ fineRows bs := by simp [fineRows]
    have e3 : binIntegrals N (coarseGrid lo (b :: bs)) = (∫ E in lo..b.hi, N E) :: binIntegrals N (coarseGrid b.hi bs) := by
      unfold binIntegrals coarseGrid
      rw [List.map_cons, perBin_cons]
    have e4 : (binIntegrals N (lo :: (b.cuts ++ [b.hi]))).length = b.cuts.length + 1 := by
      unfold binIntegrals
      rw [perBin_length]
      simp
    have e5 : (binIntegrals N (lo :: (b.cuts ++ [b.hi]))).sum = ∫ E in lo..b.hi, N E :=
      sum_binIntegrals (fun x hx y hy => hN x y (hp1 x hx) (hp1 y hy)) lo b.hi rfl (by
        rw [← List.cons_append, List.getLast?_append]
        rfl)
    rw [e1, e2, e3, fold_append j _ _ _ _ (by rw [List.length_replicate, e4]), ih b.hi hp2, ← e4, fold_replicate, e5]
    unfold fold
    rw [List.map_cons, List.zipWith_cons_cons, List.sum_cons]

/-! ## The likelihood -/

theorem rate_of_range {d : FitData} {u : List ℝ} (hl : u.length = d.matrix.length) (hr : ∀ r < d.matrix.length, 1e-300 ≤ nth u r ∧ nth u r ≤ 1e300) (j : Nat) :
    d.sourceRate u j = fold j d.matrix u * nth d.areaScale j := by
  unfold FitData.sourceRate
  rw [← fold_eq j d.matrix u hl, ← List.sum_toFinset _ (List.nodup_range), List.toFinset_range]
  congr 1
  refine Finset.sum_congr rfl fun r hr' => ?_
  obtain ⟨a, b⟩ := hr r (Finset.mem_range.1 hr')
  rw [clip_id a b]

theorem positive_coarse {lo : ℝ} {bs : List Bin} (hp : Positive (fineGrid lo bs)) : Positive (coarseGrid lo bs) := by
  intro e he
  apply hp
  unfold coarseGrid at he
  unfold fineGrid
  simp only [List.mem_cons, List.mem_map, List.mem_flatMap, List.mem_append, List.not_mem_nil, or_false] at he ⊢
  rcases he with rfl | ⟨b, hb, rfl⟩
  · exact Or.inl rfl
  · exact Or.inr ⟨b, hb, Or.inr rfl⟩

/-- **C141.**  Splitting any bins of a response at any energies, all parts keeping the response of the bin, changes neither the expected counts nor the fitted background nor the
log-likelihood of any channel, for every statistic and every model whose values are integrals over the bins (all fluxes in the numerical range of the program).
Missing: models whose values are not integrals over the bins, see `C141_components_partial` and `C141_broken_refuted`. -/
theorem C141_refine_partial (model : List ℝ → List ℝ) (N : ℝ → ℝ) (hm : Exact model N) (lo : ℝ) (bs : List Bin) (hp : Positive (fineGrid lo bs)) (stat : Stat) (d : FitData)
    (hd : d.matrix = bs.map Bin.row)
    (hc : ∀ r < bs.length, 1e-300 ≤ nth (model (coarseGrid lo bs)) r ∧ nth (model (coarseGrid lo bs)) r ≤ 1e300)
    (hf : ∀ r < (fineRows bs).length, 1e-300 ≤ nth (model (fineGrid lo bs)) r ∧ nth (model (fineGrid lo bs)) r ≤ 1e300) :
    likelihood stat { d with matrix := fineRows bs } (model (fineGrid lo bs)) = likelihood stat d (model (coarseGrid lo bs)) := by
  have ef := hm.bins _ hp
  have ec := hm.bins _ (positive_coarse hp)
  obtain ⟨l1, l2⟩ := lengths N lo bs
  have hrate : ∀ j, FitData.sourceRate { d with matrix := fineRows bs } (model (fineGrid lo bs)) j = d.sourceRate (model (coarseGrid lo bs)) j := by
    intro j
    rw [rate_of_range (d := { d with matrix := fineRows bs }) (by rw [ef, l1]) hf j,
      rate_of_range (d := d) (by rw [ec, l2, hd, List.length_map]) (by rw [hd, List.length_map]; exact hc) j]
    show fold j (fineRows bs) (model (fineGrid lo bs)) * nth d.areaScale j = _
    rw [ef, ec, fold_refine j N hm.integrable lo bs hp, hd]
  have hcounts : FitData.sourceCounts { d with matrix := fineRows bs } (model (fineGrid lo bs)) = d.sourceCounts (model (coarseGrid lo bs)) := by
    funext j
    unfold FitData.sourceCounts
    rw [hrate]
  have hsize : FitData.size { d with matrix := fineRows bs } = d.size := rfl
  unfold likelihood
  simp only [hcounts, hrate, hsize]

/-! ## The components -/

theorem exact_add {m1 m2 : List ℝ → List ℝ} {N1 N2 : ℝ → ℝ} (h1 : Exact m1 N1) (h2 : Exact m2 N2) : Exact (fun g => List.zipWith (· + ·) (m1 g) (m2 g)) (fun E => N1 E + N2 E) where
  bins := by
    intro g hg
    rw [h1.bins g hg, h2.bins g hg]
    unfold binIntegrals
    rw [zipWith_perBin]
    refine perBin_congr fun a ha b hb => ?_
    rw [intervalIntegral.integral_add (h1.integrable a b (hg a ha) (hg b hb)) (h2.integrable a b (hg a ha) (hg b hb))]
  integrable := fun x y hx hy => (h1.integrable x y hx hy).add (h2.integrable x y hx hy)

theorem exact_mul {m : List ℝ → List ℝ} {N : ℝ → ℝ} (c : ℝ) (h : Exact m N) : Exact (fun g => (m g).map (c * ·)) (fun E => c * N E) where
  bins := by
    intro g hg
    rw [h.bins g hg]
    unfold binIntegrals
    rw [perBin_map]
    refine perBin_congr fun a _ b _ => ?_
    rw [intervalIntegral.integral_const_mul]
  integrable := fun x y hx hy => (h.integrable x y hx hy).const_mul c

theorem exact_shift {m : List ℝ → List ℝ} {N : ℝ → ℝ} (z : ℝ) (hz : -1 < z) (h : Exact m N) : Exact (zaShift z m) (fun E => N (E * (1 + z))) where
  bins := fun g hg => Models.Spectra.C40_spectrum z hz m N h.bins g hg
  integrable := by
    intro x y hx hy
    have h0 : (0 : ℝ) < 1 + z := by linarith
    have := (h.integrable (x * (1 + z)) (y * (1 + z)) (mul_pos hx h0) (mul_pos hy h0)).comp_mul_right (c := 1 + z) (enorm_ne_top)
    rwa [mul_div_cancel_right₀ _ h0.ne', mul_div_cancel_right₀ _ h0.ne'] at this

/-- **C141 (components).**  The power law, its flux-normalised forms and the Lorentz line are such models, and so are sums, constant multiples and redshifted forms of such models.
Missing: components that the program integrates numerically, and products with energy-dependent factors; their values for a bin are approximations that depend on the bin. -/
theorem C141_components_partial :
    (∀ alpha K, ∃ N, Exact (powerLaw alpha K) N) ∧ (∀ emin emax alpha F, 0 < emin → emin < emax → ∃ N, Exact (plPhFlux emin emax alpha F) N) ∧
    (∀ emin emax alpha F, 0 < emin → emin < emax → ∃ N, Exact (plEnFlux emin emax alpha F) N) ∧
    (∀ El sigma K, 0 ≤ El → 0 < sigma → ∃ N, Exact (lorentz El sigma K) N) ∧
    (∀ m1 m2 N1 N2, Exact m1 N1 → Exact m2 N2 → ∃ N, Exact (fun g => List.zipWith (· + ·) (m1 g) (m2 g)) N) ∧
    (∀ m N1 c, Exact m N1 → ∃ N, Exact (fun g => (m g).map (c * ·)) N) ∧ ∀ m N1 z, -1 < z → Exact m N1 → ∃ N, Exact (zaShift z m) N := by
  refine ⟨?_, ?_, ?_, ?_, fun _ _ _ _ h1 h2 => ⟨_, exact_add h1 h2⟩, fun _ _ c h => ⟨_, exact_mul c h⟩, fun _ _ z hz h => ⟨_, exact_shift z hz h⟩⟩
  · intro alpha K
    exact ⟨_, C36_exact alpha K, fun x y hx hy => rpow_intervalIntegrable hx hy _ _⟩
  · intro emin emax alpha F h0 h1
    obtain ⟨N, ⟨A, rfl⟩, -, hN⟩ := C38_photon emin emax alpha F h0 h1
    exact ⟨_, hN, fun x y hx hy => rpow_intervalIntegrable hx hy _ _⟩
  · intro emin emax alpha F h0 h1
    obtain ⟨N, ⟨A, rfl⟩, -, hN⟩ := C38_energy emin emax alpha F h0 h1
    exact ⟨_, hN, fun x y hx hy => rpow_intervalIntegrable hx hy _ _⟩
  · intro El sigma K hE hs
    refine ⟨_, fun g _ => C55_exact El sigma K hE hs g, fun x y _ _ => ?_⟩
    apply Continuous.intervalIntegrable
    unfold lorentzDoc
    have : ∀ x : ℝ, (x - El) ^ 2 + (sigma / 2) ^ 2 ≠ 0 := fun x => by positivity
    fun_prop (disch := exact this _)

set_option exponentiation.threshold 400 in
theorem tiny_le_tenth : (1e-300 : ℝ) ≤ 1 / 10 := by norm_num

theorem tiny_le_one : (1e-300 : ℝ) ≤ 1 := tiny_le_tenth.trans (by norm_num)

set_option exponentiation.threshold 400 in
theorem two_le_huge : (2 : ℝ) ≤ 1e300 := by norm_num

/-- a bin from 1/2 to 2 keV, split at 3/2, with unit response -/
noncomputable def exBins : List Bin := [⟨[3 / 2], 2, [1]⟩]

theorem exBins_positive : Positive (fineGrid (1 / 2) exBins) := by
  intro e he
  simp [fineGrid, exBins] at he
  rcases he with rfl | rfl | rfl <;> norm_num

/-- `C141_refine_partial` applies to a power law, for every statistic -/
example (stat : Stat) : likelihood stat { exFit with matrix := fineRows exBins } (powerLaw 2 1 (fineGrid (1 / 2) exBins)) = likelihood stat exFit (powerLaw 2 1 (coarseGrid (1 / 2) exBins)) := by
  obtain ⟨N, hN⟩ := C141_components_partial.1 2 1
  have e1 : powerLaw 2 1 (coarseGrid (1 / 2) exBins) = [3 / 2] := by
    simp [coarseGrid, exBins, powerLaw, powerlawIntegral, diff]
    norm_num
  have e2 : powerLaw 2 1 (fineGrid (1 / 2) exBins) = [4 / 3, 1 / 6] := by
    simp [fineGrid, exBins, powerLaw, powerlawIntegral, diff]
    norm_num
  refine C141_refine_partial _ N hN _ _ exBins_positive stat exFit rfl ?_ ?_
  · rw [e1]
    intro r hr
    have : r = 0 := by simp [exBins] at hr; exact hr
    subst this
    simp only [nth, List.getD_cons_zero]
    constructor
    · exact le_trans (b := 1) (tiny_le_one) (by norm_num)
    · exact le_trans (b := 2) (by norm_num) two_le_huge
  · rw [e2]
    intro r hr
    have : r = 0 ∨ r = 1 := by simp [exBins, fineRows] at hr; omega
    rcases this with rfl | rfl
    all_goals
      simp only [nth, List.getD_cons_zero, List.getD_cons_succ]
      constructor
      · exact le_trans tiny_le_tenth (by norm_num)
      · exact le_trans (b := 2) (by norm_num) two_le_huge

/-- **C141 fails for the broken power law**: splitting a bin that contains the break, with the response unchanged, changes the expected counts and with them the statistic: the bin
counts wholly as below the break when its lower edge is. -/
theorem C141_broken_refuted : ∃ (alpha1 Eb alpha2 K lo : ℝ) (bs : List Bin) (d : FitData), 0 < Eb ∧ 0 < K ∧ Positive (fineGrid lo bs) ∧ d.matrix = bs.map Bin.row ∧
    ∃ s s' : Sites, likelihood .cstat d (brokenPL alpha1 Eb alpha2 K (coarseGrid lo bs)) = .ok s ∧
      likelihood .cstat { d with matrix := fineRows bs } (brokenPL alpha1 Eb alpha2 K (fineGrid lo bs)) = .ok s' ∧ s.onModel = [3 / 2] ∧ s'.onModel = [7 / 6] := by
  have e1 : brokenPL 0 1 2 1 (coarseGrid (1 / 2) exBins) = [3 / 2] := by
    norm_num [coarseGrid, exBins, brokenPL, powerlawIntegral, diff]
  have e2 : brokenPL 0 1 2 1 (fineGrid (1 / 2) exBins) = [1, 1 / 6] := by
    norm_num [fineGrid, exBins, brokenPL, powerlawIntegral, diff]
  refine ⟨0, 1, 2, 1, 1 / 2, exBins, exFit, one_pos, one_pos, exBins_positive, rfl, _, _, rfl, rfl, ?_, ?_⟩
  · rw [e1]
    have : exFit.sourceCounts [3 / 2] 0 = 3 / 2 := by
      unfold FitData.sourceCounts FitData.sourceRate
      simp only [exFit, List.length_singleton, List.range_one, List.map_cons, List.map_nil, nth, List.getD_cons_zero]
      rw [clip_id (le_trans tiny_le_one (by norm_num)) (le_trans (b := 2) (by norm_num) two_le_huge)]
      norm_num [clip]
    show (List.range 1).map (exFit.sourceCounts [3 / 2]) = _
    rw [List.range_one, List.map_singleton, this]
  · rw [e2]
    have : FitData.sourceCounts { exFit with matrix := fineRows exBins } [1, 1 / 6] 0 = 7 / 6 := by
      unfold FitData.sourceCounts FitData.sourceRate
      have h2 : List.range [[(1 : ℝ)], [1]].length = [0, 1] := rfl
      have h3 : fineRows exBins = [[1], [1]] := rfl
      simp only [h2, h3, exFit, List.map_cons, List.map_nil, nth, List.getD_cons_zero, List.getD_cons_succ]
      rw [clip_id tiny_le_one (le_trans (b := 2) (by norm_num) two_le_huge), clip_id (le_trans tiny_le_tenth (by norm_num)) (le_trans (b := 2) (by norm_num) two_le_huge)]
      norm_num [clip]
    show (List.range 1).map (FitData.sourceCounts { exFit with matrix := fineRows exBins } [1, 1 / 6]) = _
    rw [List.range_one, List.map_singleton, this]

/-- **C141 fails for components integrated with the trapezoidal rule**: whichever way a bin is split, the exponential spectrum (a cut-off power law of index 0) gives fewer photons
in the parts together than in the bin, so with the response unchanged there are fewer expected counts. -/
theorem C141_numeric_refuted (Ec K a c b : ℝ) (hE : 0 < Ec) (hK : 0 < K) (hac : a < c) (hcb : c < b) :
    (trapz true (cutoffPL 0 Ec K) [a, c, b]).sum < (trapz true (cutoffPL 0 Ec K) [a, b]).sum := by
  have hne : -a / Ec ≠ -b / Ec := by
    intro h
    rw [div_left_inj' hE.ne'] at h
    linarith
  have h1 : 0 < (b - c) / (b - a) := div_pos (by linarith) (by linarith)
  have h1' : 0 < (c - a) / (b - a) := div_pos (by linarith) (by linarith)
  have h1s : (b - c) / (b - a) + (c - a) / (b - a) = 1 := by
    rw [← add_div, div_eq_one_iff_eq (by linarith)]
    ring
  have hconv := strictConvexOn_exp.2 (Set.mem_univ (-a / Ec)) (Set.mem_univ (-b / Ec)) hne h1 h1' h1s
  have hd : b - a ≠ 0 := by linarith
  have hx : ((b - c) / (b - a)) • (-a / Ec) + ((c - a) / (b - a)) • (-b / Ec) = -c / Ec := by
    simp only [smul_eq_mul]
    field_simp
    ring
  rw [hx] at hconv
  simp only [smul_eq_mul] at hconv
  have h2 : Real.exp (-c / Ec) * (b - a) < (b - c) * Real.exp (-a / Ec) + (c - a) * Real.exp (-b / Ec) := by
    have h0 : 0 < b - a := by linarith
    have := mul_lt_mul_of_pos_right hconv h0
    refine this.trans_eq ?_
    field_simp
  simp only [trapz, perBin, List.tail_cons, List.zipWith_cons_cons, List.zipWith_nil_left, List.sum_cons, List.sum_nil, if_true, cutoffPL, neg_zero, Real.rpow_zero, mul_one, add_zero]
  nlinarith [mul_lt_mul_of_pos_left h2 hK]

/-- a bin from 1 to 2 keV split at 3/2 -/
example : (trapz true (cutoffPL 0 1 1) [1, 3 / 2, 2]).sum < (trapz true (cutoffPL 0 1 1) [1, 2]).sum :=
  C141_numeric_refuted 1 1 1 (3 / 2) 2 one_pos one_pos (by norm_num) (by norm_num)

end Elisa.Infer.Refine
