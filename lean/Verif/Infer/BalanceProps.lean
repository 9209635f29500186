import Verif.Infer.ConvexProps
import Mathlib.Analysis.Calculus.LocalExtr.Basic
import Mathlib.Analysis.SpecialFunctions.Log.Deriv

/-!
# C120: at a best fit the expected counts add up to the observed counts
-/

namespace Elisa.Infer

open Elisa Elisa.Grouping Topology

/-- The counts a fit expects: in the source regions and, where the background is profiled, in the background regions. -/
def Sites.expectedCounts (n : Nat) (s : Sites) : ℝ :=
  ∑ j ∈ Finset.range n, (nth s.onModel j + (s.off.map fun o => nth o.2.1 j).getD 0)

/-- The counts observed there. -/
def Sites.observedCounts (n : Nat) (s : Sites) : ℝ :=
  ∑ j ∈ Finset.range n, (nth s.onData j + (s.off.map fun o => nth o.1 j).getD 0)

section Lemmas

/-- `-log` of the Poisson likelihood, up to the factorial. -/
noncomputable def cost (n x : ℝ) : ℝ := x - n * Real.log x

theorem poisLik_cost {n x : ℝ} (hx : 0 ≤ x) (h : 0 < x ∨ n = 0) : poisLik n x = Real.exp (-cost n x) := by
  unfold poisLik cost
  rcases h with h | rfl
  · rw [Real.rpow_def_of_pos h, ← Real.exp_add]
    congr 1; ring
  · simp

theorem xlogy_eq (n x : ℝ) : xlogy n x = n * Real.log x := by
  unfold xlogy
  split
  · rename_i h; rw [h]; ring
  · rfl

theorem poissonLogProb_cost {n x : ℝ} (hn : 0 ≤ n) (hx : 0 ≤ x) (h : 0 < x ∨ n = 0) : poissonLogProb n x = cost n n - cost n x := by
  have hle := logp_nonpos hn hx h
  have e : poissonLogProb n x = xlogy n x - x - (xlogy n n - n) := min_eq_left hle
  rw [e, xlogy_eq, xlogy_eq]
  unfold cost
  ring

theorem cost_deriv {n x : ℝ} (h : 0 < x ∨ (x = 0 ∧ n = 0)) : HasDerivAt (fun l : ℝ => cost n (l * x)) (x - n) 1 := by
  unfold cost
  rcases h with h | ⟨rfl, rfl⟩
  · have h1 : HasDerivAt (fun l : ℝ => l * x) x 1 := by simpa using (hasDerivAt_id (1 : ℝ)).mul_const x
    have h2 : HasDerivAt (fun l : ℝ => Real.log (l * x)) (x / (1 * x)) 1 := h1.log (by rw [one_mul]; exact h.ne')
    refine (h1.sub (h2.const_mul n)).congr_deriv ?_
    rw [one_mul, div_self h.ne']
    ring
  · simpa using hasDerivAt_const (1 : ℝ) (0 : ℝ)

theorem folded_scale {d : FitData} {l : ℝ} {u u' : List ℝ} (h : ∀ r < d.matrix.length, nth u' r = l * nth u r) (j : Nat) :
    d.folded u' j = l * d.folded u j := by
  unfold FitData.folded
  have : ∑ r ∈ Finset.range d.matrix.length, nth (d.matrix.getD r []) j * nth u' r =
      l * ∑ r ∈ Finset.range d.matrix.length, nth (d.matrix.getD r []) j * nth u r := by
    rw [Finset.mul_sum]
    apply Finset.sum_congr rfl
    intro r hr
    rw [h r (Finset.mem_range.1 hr)]
    ring
  rw [this]
  ring

theorem sourceCounts_eq {stat : Stat} {d : FitData} {u : List ℝ} (hs : stat ≠ .pstat) (hr : InRange stat d u (d.folded u)) :
    ∀ j < d.size, d.sourceCounts u j = d.folded u j ∧ 0 < d.folded u j := by
  intro j hj
  obtain ⟨h1, h2, h3⟩ := hr.rate j hj
  have he : expected stat d j (d.folded u j) = d.folded u j := by
    cases stat <;> first | rfl | exact absurd rfl hs
  rw [he] at h2 h3
  refine ⟨?_, ?_⟩
  · unfold FitData.sourceCounts
    rw [h1, clip_id h2 h3]
  · have : (0 : ℝ) < 1e-30 := by norm_num
    linarith

/-- One data set: scaling the fluxes by `l` changes the deviance by at most what scaling all expected counts does. -/
theorem scaled {stat : Stat} {d : FitData} {u : List ℝ} (hstat : stat = .cstat ∨ stat = .wstat) (hu : Usable stat d) (hr : InRange stat d u (d.folded u)) :
    ∃ sites G, likelihood stat d u = .ok sites ∧ HasDerivAt G (2 * (sites.expectedCounts d.size - sites.observedCounts d.size)) 1 ∧
      devOf (stat, d, u) = G 1 ∧
      ∀ l u', 0 < l → (∀ r < d.matrix.length, nth u' r = l * nth u r) → InRange stat d u' (d.folded u') → devOf (stat, d, u') ≤ G l := by
  rcases hstat with rfl | rfl
  · have hsc := sourceCounts_eq (by decide) hr
    have hn : ∀ j < d.size, 0 ≤ nth d.specCounts j := hu
    refine ⟨_, fun l => ∑ j ∈ Finset.range d.size, 2 * (cost (nth d.specCounts j) (l * d.folded u j) - cost (nth d.specCounts j) (nth d.specCounts j)), rfl, ?_, ?_, ?_⟩
    · have : ∀ j ∈ Finset.range d.size, HasDerivAt (fun l => 2 * (cost (nth d.specCounts j) (l * d.folded u j) - cost (nth d.specCounts j) (nth d.specCounts j)))
          (2 * (d.folded u j - nth d.specCounts j)) 1 := by
        intro j hj
        have h := hsc j (Finset.mem_range.1 hj)
        exact ((cost_deriv (Or.inl h.2)).sub_const _).const_mul 2
      refine (HasDerivAt.fun_sum this).congr_deriv ?_
      unfold Sites.expectedCounts Sites.observedCounts
      rw [← Finset.sum_sub_distrib, Finset.mul_sum]
      apply Finset.sum_congr rfl
      intro j hj
      simp only [Option.map_none, Option.getD_none, add_zero]
      rw [nth_map (Finset.mem_range.1 hj), (hsc j (Finset.mem_range.1 hj)).1]
    · unfold devOf
      simp only [likelihood]
      rw [nth_sum, Finset.mul_sum, List.length_map, List.length_range]
      apply Finset.sum_congr rfl
      intro j hj
      have hj' := Finset.mem_range.1 hj
      have h := hsc j hj'
      rw [nth_map hj', nth_map hj', h.1, poissonLogProb_cost (hn j hj') h.2.le (Or.inl h.2), one_mul]
      ring
    · intro l u' hl hu' hr'
      have hsc' := sourceCounts_eq (by decide) hr'
      apply le_of_eq
      unfold devOf
      simp only [likelihood]
      rw [nth_sum, Finset.mul_sum, List.length_map, List.length_range]
      apply Finset.sum_congr rfl
      intro j hj
      have hj' := Finset.mem_range.1 hj
      have h := hsc' j hj'
      rw [nth_map hj', nth_map hj', h.1, poissonLogProb_cost (hn j hj') h.2.le (Or.inl h.2), folded_scale hu']
      ring
  · have hsc := sourceCounts_eq (by decide) hr
    cases hb : d.back with
    | none => simp [Usable, hb] at hu
    | some b =>
      have hu0 : ∀ j < d.size, 0 ≤ nth d.specCounts j ∧ 0 ≤ nth b.counts j ∧ 0 < nth b.ratio j := by simpa [Usable, hb] using hu
      have facts : ∀ j < d.size, ∃ x m, m = d.folded u j + nth b.ratio j * x ∧
          x = wstatBackground (d.folded u j) (nth d.specCounts j) (nth b.counts j) (nth b.ratio j) ∧ 0 < m ∧ 0 ≤ x ∧ (0 < x ∨ nth b.counts j = 0) := by
        intro j hj
        obtain ⟨u1, u2, u3⟩ := hu0 j hj
        obtain ⟨g0, -⟩ := C22_wstat_background (d.folded u j) _ _ _ (hsc j hj).2.le u1 u2 u3
        obtain ⟨g2, g3⟩ := C22_wstat_domain (d.folded u j) _ _ _ (hsc j hj).2 u1 u2 u3
        exact ⟨_, _, rfl, rfl, g2, g0, u2.eq_or_lt.elim (fun h => Or.inr h.symm) fun h => Or.inl (g3 h)⟩
      set W : ℕ → ℝ := fun j => wstatBackground (d.folded u j) (nth d.specCounts j) (nth b.counts j) (nth b.ratio j) with hW
      set M : ℕ → ℝ := fun j => d.folded u j + nth b.ratio j * W j with hM
      have facts' : ∀ j < d.size, 0 < M j ∧ 0 ≤ W j ∧ (0 < W j ∨ nth b.counts j = 0) := by
        intro j hj
        obtain ⟨x, m, e1, e2, e3⟩ := facts j hj
        subst e1; subst e2
        exact e3
      obtain ⟨sites, h1, h2, h3⟩ := C25_channel_deviance .wstat d u _ hu hr
      have hon : ∀ j < d.size, nth sites.onModel j = M j ∧ nth sites.onData j = nth d.specCounts j ∧
          (sites.off.map fun o => nth o.2.1 j).getD 0 = W j ∧ (sites.off.map fun o => nth o.1 j).getD 0 = nth b.counts j ∧
          nth sites.loglike j = poissonLogProb (nth d.specCounts j) (M j) + poissonLogProb (nth b.counts j) (W j) := by
        intro j hj
        have e : likelihood .wstat d u = .ok sites := h1
        simp only [likelihood, hb, Except.ok.injEq] at e
        subst e
        simp only [nth_map hj, Option.map_some, Option.getD_some, (hsc j hj).1, hM, hW, and_self]
      refine ⟨sites, fun l => ∑ j ∈ Finset.range d.size, 2 * (cost (nth d.specCounts j) (l * M j) - cost (nth d.specCounts j) (nth d.specCounts j) +
        (cost (nth b.counts j) (l * W j) - cost (nth b.counts j) (nth b.counts j))), h1, ?_, ?_, ?_⟩
      · have : ∀ j ∈ Finset.range d.size, HasDerivAt (fun l => 2 * (cost (nth d.specCounts j) (l * M j) - cost (nth d.specCounts j) (nth d.specCounts j) +
            (cost (nth b.counts j) (l * W j) - cost (nth b.counts j) (nth b.counts j)))) (2 * (M j - nth d.specCounts j + (W j - nth b.counts j))) 1 := by
          intro j hj
          obtain ⟨f1, f2, f3⟩ := facts' j (Finset.mem_range.1 hj)
          refine (((cost_deriv (Or.inl f1)).sub_const _).add ((cost_deriv ?_).sub_const _)).const_mul 2
          rcases f2.eq_or_lt with e | e
          · rcases f3 with f3 | f3
            · exact Or.inl f3
            · exact Or.inr ⟨e.symm, f3⟩
          · exact Or.inl e
        refine (HasDerivAt.fun_sum this).congr_deriv ?_
        unfold Sites.expectedCounts Sites.observedCounts
        rw [← Finset.sum_sub_distrib, Finset.mul_sum]
        apply Finset.sum_congr rfl
        intro j hj
        obtain ⟨o1, o2, o3, o4, -⟩ := hon j (Finset.mem_range.1 hj)
        rw [o1, o2, o3, o4]
        ring
      · unfold devOf
        simp only [h1]
        rw [nth_sum, Finset.mul_sum, h2]
        apply Finset.sum_congr rfl
        intro j hj
        have hj' := Finset.mem_range.1 hj
        obtain ⟨u1, u2, -⟩ := hu0 j hj'
        obtain ⟨f1, f2, f3⟩ := facts' j hj'
        obtain ⟨-, -, -, -, o5⟩ := hon j hj'
        rw [o5, poissonLogProb_cost u1 f1.le (Or.inl f1), poissonLogProb_cost u2 f2 f3, one_mul, one_mul]
        ring
      · intro l u' hl hu' hr'
        obtain ⟨sites', h1', h2', h3'⟩ := C25_channel_deviance .wstat d u' _ hu hr'
        unfold devOf
        simp only [h1']
        rw [nth_sum, Finset.mul_sum, h2']
        apply Finset.sum_le_sum
        intro j hj
        have hj' := Finset.mem_range.1 hj
        obtain ⟨u1, u2, -⟩ := hu0 j hj'
        obtain ⟨f1, f2, f3⟩ := facts' j hj'
        obtain ⟨D, e, -, hD⟩ := h3' j hj'
        rw [e]
        simp only [IsDeviance, hb] at hD
        have hx : 0 ≤ l * W j := by positivity
        have := hD.2 ⟨_, hx, rfl⟩
        rw [folded_scale hu'] at this
        unfold onOffLik at this
        have em : l * d.folded u j + nth b.ratio j * (l * W j) = l * M j := by rw [hM]; ring
        have hn' : 0 < nth d.specCounts j ∨ nth d.specCounts j = 0 := u1.eq_or_lt.elim (fun h => Or.inr h.symm) Or.inl
        have hm' : 0 < nth b.counts j ∨ nth b.counts j = 0 := u2.eq_or_lt.elim (fun h => Or.inr h.symm) Or.inl
        rw [em, poisLik_cost (by positivity) (Or.inl (by positivity)), poisLik_cost hx (f3.elim (fun h => Or.inl (by positivity)) Or.inr),
          poisLik_cost u1 hn', poisLik_cost u2 hm', ← Real.exp_add, ← Real.exp_add, ← Real.exp_sub, Real.exp_le_exp] at this
        linarith

end Lemmas


theorem fluxes_scale (p : Part) (l : ℝ) (K : Nat → ℝ) : ∀ r < p.data.matrix.length, nth (p.fluxes (l • K)) r = l * nth (p.fluxes K) r := by
  intro r hr
  unfold Part.fluxes
  rw [nth_map hr, nth_map hr, Finset.mul_sum]
  apply Finset.sum_congr rfl
  intro c _
  simp only [Pi.smul_apply, smul_eq_mul]
  ring

/-- The counts expected (or observed) in all data sets of a fit. -/
def totalCounts (count : Nat → Sites → ℝ) (parts : List Part) (sites : List Sites) : ℝ :=
  (List.zipWith (fun p s => count p.data.size s) parts sites).sum

/-- **C120 (balance of counts).**  Data sets fitted with `cstat` or `wstat`, in any number: if no common rescaling of the amplitudes improves the fit, the expected counts add up to the
observed counts (source and background regions together, where the background is profiled). -/
theorem C120_balance (parts : List Part) (hstat : ∀ p ∈ parts, p.stat = .cstat ∨ p.stat = .wstat) (hu : ∀ p ∈ parts, Usable p.stat p.data) (K : Nat → ℝ)
    (hK : ∀ᶠ l in 𝓝 (1 : ℝ), l • K ∈ Allowed parts ∧ fitStatistic parts K ≤ fitStatistic parts (l • K)) :
    ∃ sites, fitSites (parts.map fun p => (p.stat, p.data, p.fluxes K)) = .ok sites ∧
      totalCounts Sites.expectedCounts parts sites = totalCounts Sites.observedCounts parts sites := by
  have hK1 : K ∈ Allowed parts := by simpa using (hK.self_of_nhds).1
  obtain ⟨e1, sites, hs⟩ := fitStatistic_eq parts hu K hK1
  refine ⟨sites, hs, ?_⟩
  have key : ∀ (parts : List Part) (sites : List Sites), (∀ p ∈ parts, p.stat = .cstat ∨ p.stat = .wstat) → (∀ p ∈ parts, Usable p.stat p.data) →
      K ∈ Allowed parts → fitSites (parts.map fun p => (p.stat, p.data, p.fluxes K)) = .ok sites →
      ∃ G : ℝ → ℝ, HasDerivAt G (2 * (totalCounts Sites.expectedCounts parts sites - totalCounts Sites.observedCounts parts sites)) 1 ∧
        (parts.map fun p => devOf (p.stat, p.data, p.fluxes K)).sum = G 1 ∧
        ∀ l, 0 < l → l • K ∈ Allowed parts → (parts.map fun p => devOf (p.stat, p.data, p.fluxes (l • K))).sum ≤ G l := by
    intro parts
    induction parts with
    | nil =>
      intro sites _ _ _ h
      obtain rfl : [] = sites := Except.ok.inj h
      refine ⟨fun _ => 0, ?_, by simp, by simp⟩
      simpa [totalCounts] using hasDerivAt_const (1 : ℝ) (0 : ℝ)
    | cons p ps ih =>
      intro sites hst hus hKs h
      obtain ⟨x, G, a1, a2, a3, a4⟩ := scaled (u := p.fluxes K) (hst p (by simp)) (hus p (by simp)) (hKs p (by simp))
      unfold fitSites at h ih
      rw [List.map_cons, List.mapM_cons] at h
      simp only [a1] at h
      cases hr : ((ps.map fun p => (p.stat, p.data, p.fluxes K)).mapM fun x => likelihood x.1 x.2.1 x.2.2) with
      | error e => rw [hr] at h; exact absurd h (by simp [bind, Except.bind])
      | ok r =>
        rw [hr] at h
        obtain rfl : x :: r = sites := Except.ok.inj h
        obtain ⟨G', b2, b3, b4⟩ := ih r (fun q hq => hst q (by simp [hq])) (fun q hq => hus q (by simp [hq])) (fun q hq => hKs q (by simp [hq])) hr
        refine ⟨fun l => G l + G' l, ?_, ?_, ?_⟩
        · refine (a2.add b2).congr_deriv ?_
          simp only [totalCounts, List.zipWith_cons_cons, List.sum_cons]
          ring
        · simp only [List.map_cons, List.sum_cons, a3, b3]
        · intro l hl hlK
          simp only [List.map_cons, List.sum_cons]
          exact add_le_add (a4 l _ hl (fluxes_scale p l K) (hlK p (by simp))) (b4 l hl (fun q hq => hlK q (by simp [hq])))
  obtain ⟨G, g1, g2, g3⟩ := key parts sites hstat hu hK1 hs
  have hmin : IsLocalMin G 1 := by
    have hpos : ∀ᶠ l in 𝓝 (1 : ℝ), 0 < l := eventually_gt_nhds one_pos
    filter_upwards [hK, hpos] with l h1 h2
    rw [← g2, ← e1]
    refine le_trans h1.2 ?_
    rw [(fitStatistic_eq parts hu _ h1.1).1]
    exact g3 l h2 h1.1
  have := hmin.hasDerivAt_eq_zero g1
  linarith

set_option exponentiation.threshold 400 in
/-- The hypotheses are met: 5 counts, a component which gives 2 counts per unit of amplitude, amplitude 5/2. -/
example : ∃ sites, fitSites ([⟨.cstat, exFit, [[2]]⟩].map fun p : Part => (p.stat, p.data, p.fluxes fun _ => 5 / 2)) = .ok sites ∧
    totalCounts Sites.expectedCounts [⟨.cstat, exFit, [[2]]⟩] sites = totalCounts Sites.observedCounts [⟨.cstat, exFit, [[2]]⟩] sites := by
  have hu : ∀ p ∈ ([⟨.cstat, exFit, [[2]]⟩] : List Part), Usable p.stat p.data := by
    intro p hp
    obtain rfl := List.mem_singleton.1 hp
    exact exFit_usable _
  have hall : ∀ l : ℝ, 1 / 2 < l → l < 2 → l • (fun _ : Nat => (5 / 2 : ℝ)) ∈ Allowed [⟨.cstat, exFit, [[2]]⟩] := by
    intro l h1 h2 p hp
    obtain rfl := List.mem_singleton.1 hp
    have hf : nth (Part.fluxes ⟨.cstat, exFit, [[2]]⟩ (l • fun _ : Nat => (5 / 2 : ℝ))) 0 = 5 * l := by
      simp [Part.fluxes, nth, exFit]
      ring
    refine ⟨?_, ?_⟩
    · intro r hr
      have hr' : r = 0 := by simpa [exFit] using hr
      subst hr'
      rw [hf]
      have a1 : (1e-300 : ℝ) ≤ 1 := by norm_num
      have a2 : (10 : ℝ) ≤ 1e300 := by norm_num
      constructor <;> linarith
    · intro j hj
      have hj' : j = 0 := by simpa [exFit, FitData.size] using hj
      subst hj'
      refine ⟨rfl, ?_⟩
      have he : expected .cstat exFit 0 (exFit.folded (Part.fluxes ⟨.cstat, exFit, [[2]]⟩ (l • fun _ : Nat => (5 / 2 : ℝ))) 0) = 5 * l := by
        show exFit.folded _ 0 = _
        unfold FitData.folded
        have : exFit.matrix.length = 1 := rfl
        rw [this, Finset.sum_range_one, hf]
        simp [exFit, nth]
      show 1e-30 ≤ expected .cstat exFit 0 _ ∧ expected .cstat exFit 0 _ ≤ 1e15
      rw [he]
      have a1 : (1e-30 : ℝ) ≤ 1 := by norm_num
      have a2 : (10 : ℝ) ≤ 1e15 := by norm_num
      constructor <;> linarith
  have hnn : ∀ L ∈ Allowed [⟨.cstat, exFit, [[2]]⟩], 0 ≤ fitStatistic [⟨.cstat, exFit, [[2]]⟩] L := by
    intro L hL
    rw [(fitStatistic_eq _ hu L hL).1]
    simp only [List.map_cons, List.map_nil, List.sum_cons, List.sum_nil, add_zero]
    obtain ⟨x, a1, a2, a3⟩ := C25_channel_deviance .cstat exFit _ _ (exFit_usable _) (hL _ (List.mem_singleton.2 rfl))
    unfold devOf
    simp only [a1]
    rw [nth_sum, Finset.mul_sum]
    apply Finset.sum_nonneg
    intro j hj
    obtain ⟨D, e, hD, -⟩ := a3 j (by rw [← a2]; exact Finset.mem_range.1 hj)
    rw [e]
    exact hD
  have h1 : (fun _ : Nat => (5 / 2 : ℝ)) ∈ Allowed [⟨.cstat, exFit, [[2]]⟩] := by simpa using hall 1 (by norm_num) (by norm_num)
  have h0 : fitStatistic [⟨.cstat, exFit, [[2]]⟩] (fun _ => 5 / 2) = 0 := by
    rw [(fitStatistic_eq _ hu _ h1).1]
    simp only [List.map_cons, List.map_nil, List.sum_cons, List.sum_nil, add_zero]
    have hsc := sourceCounts_eq (stat := .cstat) (by decide) (h1 _ (List.mem_singleton.2 rfl)) 0 (by simp [exFit, FitData.size])
    have hf : exFit.folded (Part.fluxes ⟨.cstat, exFit, [[2]]⟩ fun _ => 5 / 2) 0 = 5 := by
      simp [FitData.folded, Part.fluxes, nth, exFit]
    simp only [devOf, likelihood]
    have : exFit.size = 1 := rfl
    rw [this]
    simp only [List.range_one, List.map_cons, List.map_nil, List.sum_cons, List.sum_nil, add_zero]
    have e5 : nth exFit.specCounts 0 = 5 := rfl
    have : nth [exFit.sourceCounts (Part.fluxes ⟨.cstat, exFit, [[2]]⟩ fun _ => 5 / 2) 0] 0 = 5 := by
      rw [show nth [exFit.sourceCounts (Part.fluxes ⟨.cstat, exFit, [[2]]⟩ fun _ => 5 / 2) 0] 0 = exFit.sourceCounts (Part.fluxes ⟨.cstat, exFit, [[2]]⟩ fun _ => 5 / 2) 0 from rfl,
        hsc.1, hf]
    rw [this, e5, poissonLogProb_cost (by norm_num) (by norm_num) (Or.inl (by norm_num))]
    ring
  refine C120_balance _ (by intro p hp; obtain rfl := List.mem_singleton.1 hp; exact Or.inl rfl) hu _ ?_
  filter_upwards [eventually_gt_nhds (show (1 / 2 : ℝ) < 1 by norm_num), eventually_lt_nhds (show (1 : ℝ) < 2 by norm_num)] with l a b
  exact ⟨hall l a b, by rw [h0]; exact hnn _ (hall l a b)⟩

end Elisa.Infer
