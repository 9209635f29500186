import Verif.Infer.EndToEndProps
import Verif.Models.SpectraProps

/-!
# C97, C60: the energy bins of the response and the fluxes of the model
-/

namespace Elisa.Infer

open Elisa Elisa.Grouping Elisa.Data Elisa.Models Elisa.Models.Spectra MeasureTheory

/-- The energy bins of a response file: positive, each beginning where the one before ends (specification, models no code). -/
structure Contiguous (elo ehi : List ℝ) : Prop where
  len : elo.length = ehi.length
  pos : ∀ e ∈ elo, 0 < e
  meets : ∀ (k : ℕ) a b, ehi[k]? = some a → elo[k + 1]? = some b → a = b

theorem photonGrid_pos {elo ehi grid : List ℝ} (hg : photonGrid elo ehi = .ok grid) (hp : ∀ e ∈ elo, 0 < e) (hne : elo ≠ []) :
    ∃ last, ehi.getLast? = some last ∧ grid = elo ++ [last] := by
  unfold photonGrid at hg
  cases hl : ehi.getLast? with
  | none => rw [hl] at hg; cases hg
  | some last =>
    refine ⟨last, rfl, ?_⟩
    rw [hl] at hg
    cases elo with
    | nil => exact absurd rfl hne
    | cons e0 es =>
      have h0 : ¬ e0 ≤ 0 := not_le.2 (hp e0 (by simp))
      cases es with
      | nil =>
        simp only [List.cons_append, List.nil_append, if_neg h0] at hg
        exact (Except.ok.inj hg).symm
      | cons e1 es =>
        simp only [List.cons_append, if_neg h0] at hg
        exact (Except.ok.inj hg).symm

/-- **C60, C97 (bins).**  For bins of energy that follow one another without gap, the grid on which the model is evaluated has exactly the bins of the file: what a model
with spectrum `N` gives for bin `k` is its integral between the two edges of bin `k` in the file. -/
theorem C97_bins (elo ehi grid : List ℝ) (hc : Contiguous elo ehi) (hg : photonGrid elo ehi = .ok grid) (N : ℝ → ℝ) (k : ℕ) (a b : ℝ)
    (ha : elo[k]? = some a) (hb : ehi[k]? = some b) : nth (binIntegrals N grid) k = ∫ E in a..b, N E := by
  have hne : elo ≠ [] := by rintro rfl; simp at ha
  obtain ⟨last, hl, rfl⟩ := photonGrid_pos hg hc.pos hne
  have hk : k < elo.length := (List.getElem?_eq_some_iff.1 ha).1
  have e1 : (elo ++ [last])[k]? = some a := by rw [List.getElem?_append_left hk, ha]
  have e2 : (elo ++ [last])[k + 1]? = some b := by
    by_cases hk1 : k + 1 < elo.length
    · rw [List.getElem?_append_left hk1, List.getElem?_eq_getElem hk1, hc.meets k b _ hb (List.getElem?_eq_getElem hk1)]
    · have hkl : k + 1 = elo.length := by omega
      rw [hkl, List.getElem?_append_right le_rfl]
      have : ehi.getLast? = ehi[k]? := by rw [List.getLast?_eq_getElem?, ← hc.len, ← hkl]; rfl
      rw [this, hb] at hl
      simpa using hl.symm
  unfold nth binIntegrals
  rw [List.getD_eq_getElem?_getD, perBin_getElem?]
  simp [e1, e2]

example : Contiguous [1, 2, 4] [2, 4, 8] := by
  refine ⟨rfl, by intro e he; simp at he; rcases he with rfl | rfl | rfl <;> norm_num, ?_⟩
  intro k a b ha hb
  match k with
  | 0 => simp at ha hb; linarith
  | 1 => simp at ha hb; linarith
  | k + 2 => simp at hb

/-- **C60 fails for a response with a gap between two energy bins:** only the lower edges and the last upper edge are kept, so the photons of the gap are counted in
the bin below it (and with overlapping bins, part of a bin is lost).  Here the file has the bins 1-2 and 3-4, but a flat model gets the bin 1-3. -/
theorem C60_gap_refuted : ¬ ∀ (elo ehi grid : List ℝ), elo.length = ehi.length → (∀ e ∈ elo, 0 < e) → photonGrid elo ehi = .ok grid →
    ∀ (N : ℝ → ℝ) (k : ℕ) (a b : ℝ), elo[k]? = some a → ehi[k]? = some b → nth (binIntegrals N grid) k = ∫ E in a..b, N E := by
  intro h
  have hg : photonGrid [1, 3] [2, 4] = .ok [1, 3, 4] := by norm_num [photonGrid]
  have := h [1, 3] [2, 4] [1, 3, 4] rfl (by intro e he; simp at he; rcases he with rfl | rfl <;> norm_num) hg (fun _ => 1) 0 1 2 rfl rfl
  simp [nth, binIntegrals, perBin] at this

/-- **C97 (power law).**  With the power law component as model and a response without gaps between its energy bins: the expected source counts of every set of channels
are exposure times area scale times the sum, over the energy bins of the file, of the photons `∫ K E^(-α) dE` between the edges of the bin, times effective area, times the
probability of these channels in the matrix. -/
theorem C97_powerlaw (r : Rmf) (grid : List ℝ) (hc : Contiguous r.elo r.ehi) (hg : photonGrid r.elo r.ehi = .ok grid) (hr : r.elo.length = r.rows.length)
    (hlast : ∀ e ∈ r.ehi, 0 < e) (α K : ℝ) (x : Columns) (net : Bool) (M : ℕ → ℕ → ℝ) (arf : ℕ → ℝ) (S : Finset ℕ) :
    sourceCounts x net r.rows.length M arf (nth (powerLaw α K grid)) S =
      x.time * effScale net S x.c x.area * ∑ k ∈ Finset.range r.rows.length, (∫ E in (r.elo.getD k 0)..(r.ehi.getD k 0), K * E ^ (-α)) * arf k * ∑ i ∈ S, M k i := by
  unfold sourceCounts
  congr 1
  refine Finset.sum_congr rfl fun k hk => ?_
  have hk := Finset.mem_range.1 hk
  have hk1 : k < r.elo.length := by omega
  have hk2 : k < r.ehi.length := by rw [← hc.len]; exact hk1
  have hne : r.elo ≠ [] := by intro h; rw [h] at hk1; simp at hk1
  obtain ⟨last, hl, hgr⟩ := photonGrid_pos hg hc.pos hne
  have hp : Positive grid := by
    rw [hgr]
    intro e he
    rcases List.mem_append.1 he with h | h
    · exact hc.pos e h
    · rw [List.mem_singleton.1 h]; exact hlast _ (List.mem_of_getLast? hl)
  rw [C36_exact α K grid hp, C97_bins r.elo r.ehi grid hc hg _ k _ _ (List.getElem?_eq_getElem hk1) (List.getElem?_eq_getElem hk2)]
  simp [List.getD_eq_getElem?_getD, List.getElem?_eq_getElem hk1, List.getElem?_eq_getElem hk2]

end Elisa.Infer
